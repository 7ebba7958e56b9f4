import Verif.Spec.DiskBytes
import Verif.Proofs.DiskRead
import Verif.Proofs.RecordFormat
import Verif.Props.Keys
/-! # The bytes under the keys determine the records (C80) -/
namespace Verif.Dex.Disk
open Verif Verif.Dex Verif.Dex.KV Verif.Spec Verif.Spec.Keys

variable {txt enc : Enc} {s s' : State} {kv kv' : Store}

theorem coin_inj (h : Texts txt) {c c' : Coin} (e : coin txt c = coin txt c') : c = c' := by
  cases c; cases c'
  simp only [coin, Pb.Coin.mk.injEq] at e
  rw [h.denom _ _ e.1, e.2]

theorem coins_inj (h : Texts txt) {l l' : Coins} (e : l.map (coin txt) = l'.map (coin txt)) : l = l' :=
  List.map_injective_iff.2 (fun _ _ e => coin_inj h e) e

theorem stamp_inj {t t' : Int} (e : stamp t = stamp t') : t = t' := by
  simp only [stamp, Pb.Stamp.mk.injEq] at e
  omega

theorem reqStatus_inj {a b : ReqStatus} (e : reqStatus a = reqStatus b) : a = b := by cases a <;> cases b <;> first | rfl | exact absurd e (by decide)
theorem orderType_inj {a b : OType} (e : orderType a = orderType b) : a = b := by cases a <;> cases b <;> first | rfl | exact absurd e (by decide)
theorem direction_inj {a b : Amm.Dir} (e : direction a = direction b) : a = b := by cases a <;> cases b <;> first | rfl | exact absurd e (by decide)
theorem orderStatus_inj {a b : OStatus} (e : orderStatus a = orderStatus b) : a = b := by
  cases a <;> cases b <;> first | rfl | exact absurd e (by decide)

theorem pair_inj (h : Texts txt) {p p' : Pair} (e : pair txt p = pair txt p') : p = p' := by
  cases p; cases p'
  simp only [pair, Pb.Pair.mk.injEq] at e
  obtain ⟨rfl, h1, h2, _, rfl, rfl, rfl⟩ := e
  rw [h.denom _ _ h1, h.denom _ _ h2]

theorem pool_inj (h : Texts txt) {p p' : PoolRec} (e : pool txt p = pool txt p') : p = p' := by
  obtain ⟨_, _, _, r, _, _, _⟩ := p
  obtain ⟨_, _, _, r', _, _, _⟩ := p'
  simp only [pool, Pb.Pool.mk.injEq] at e
  obtain ⟨_, rfl, rfl, h1, _, _, h2, h3, rfl, rfl, rfl⟩ := e
  have h1 := h.addr _ _ h1
  simp only [Addr.user.injEq] at h1
  subst h1
  have : r = r' := by
    cases r with
    | none => cases r' with
      | none => rfl
      | some y => simp at h2
    | some x => cases r' with
      | none => simp at h2
      | some y =>
        simp only [Option.map_some, Option.some.injEq] at h2 h3
        rw [Prod.ext h2 h3]
  rw [this]

theorem deposit_inj (h : Texts txt) {r r' : DepReq} (e : deposit txt r = deposit txt r') : r = r' := by
  cases r; cases r'
  simp only [deposit, Pb.DepositRequest.mk.injEq, Pb.Coin.mk.injEq] at e
  obtain ⟨rfl, rfl, h0, h1, h2, h3, ⟨_, rfl⟩, h4⟩ := e
  have h1 := h.addr _ _ h1
  simp only [Addr.user.injEq] at h1
  rw [coins_inj h h2, coins_inj h h3, reqStatus_inj h4, h1, Int.ofNat.inj h0]

theorem withdraw_inj (h : Texts txt) {r r' : WdReq} (e : withdraw txt r = withdraw txt r') : r = r' := by
  cases r; cases r'
  simp only [withdraw, Pb.WithdrawRequest.mk.injEq] at e
  obtain ⟨rfl, rfl, h0, h1, h2, h3, h4⟩ := e
  have h1 := h.addr _ _ h1
  simp only [Addr.user.injEq] at h1
  rw [coin_inj h h2, coins_inj h h3, reqStatus_inj h4, h1, Int.ofNat.inj h0]

theorem order_inj (h : Texts txt) {o o' : OrderRec} (e : order txt o = order txt o') : o = o' := by
  cases o; cases o'
  simp only [order, Pb.Order.mk.injEq, Pb.Coin.mk.injEq] at e
  obtain ⟨h0, rfl, rfl, h1, h2, h3, ⟨h4, rfl⟩, ⟨_, rfl⟩, ⟨h5, rfl⟩, rfl, rfl, rfl, rfl, h6, h7⟩ := e
  have h2 := h.addr _ _ h2
  simp only [Addr.user.injEq] at h2
  rw [orderType_inj h0, Int.ofNat.inj h1, h2, direction_inj h3, h.denom _ _ h4, h.denom _ _ h5, stamp_inj h6, orderStatus_inj h7]

theorem marshal_inj {M : Type} {fs : List (Pb.Field M)} {zero m m' : M} {w w' : Pb.Bytes} (h : Pb.Sent fs zero m w) (h' : Pb.Sent fs zero m' w')
    (e : Pb.marshal fs m = Pb.marshal fs m') : m = m' := by
  rw [h.marshal, h'.marshal] at e
  cases e
  have := h.unmarshal.symm.trans h'.unmarshal
  cases this; rfl

theorem id_sent (n : UInt64) : Pb.Sent Pb.uInt64ValueFields {} { value := n.toNat } (Pb.UInt64Value.wire { value := n.toNat }) := by
  have hf : Pb.UInt64Value.Fits { value := n.toNat } := ⟨n.toNat_lt⟩
  refine (Pb.uInt64Value_runs hf).sent (Pb.uInt64Value_writes hf) ?_
  have h := (Pb.uInt64Value_writes hf).size
  rw [← h]
  show Pb.sizeAll Pb.uInt64ValueFields _ < _
  simp only [Pb.uInt64ValueFields, Pb.sizeAll, Pb.uint64Field, Pb.numField]
  split
  · norm_num
  · have h1 := Pb.varint_length (v := id n.toNat) n.toNat_lt
    have h2 : ∀ k v, (Pb.varintLoop k v).length ≤ k := by
      intro k
      induction k with
      | zero => intro v; simp [Pb.varintLoop]
      | succ k ih => intro v; rw [Pb.varintLoop]; split <;> simp [ih]
    have := h2 10 (id n.toNat)
    rw [show Pb.varintLoop 10 (id n.toNat) = Pb.varint (id n.toNat) from rfl, h1] at this
    simp only [List.length_cons, List.length_nil]
    omega

theorem pair_sent (hf : Fitting txt s) {p : Pair} (hp : p ∈ s.pairs) : Pb.Sent Pb.pairFields {} (pair txt p) (pair txt p).wire :=
  (Pb.pair_runs (hf.pairs p hp).1).sent (Pb.pair_writes (hf.pairs p hp).1) (hf.pairs p hp).2
theorem pool_sent (hf : Fitting txt s) {p : PoolRec} (hp : p ∈ s.pools) : Pb.Sent Pb.poolFields {} (pool txt p) (pool txt p).wire :=
  (Pb.pool_runs (hf.pools p hp).1).sent (Pb.pool_writes (hf.pools p hp).1) (hf.pools p hp).2
theorem deposit_sent (hf : Fitting txt s) {r : DepReq} (hr : r ∈ s.deposits) :
    Pb.Sent Pb.depositRequestFields {} (deposit txt r) (deposit txt r).wire :=
  (Pb.depositRequest_runs (hf.deposits r hr).1).sent (Pb.depositRequest_writes (hf.deposits r hr).1) (hf.deposits r hr).2
theorem withdraw_sent (hf : Fitting txt s) {r : WdReq} (hr : r ∈ s.withdraws) :
    Pb.Sent Pb.withdrawRequestFields {} (withdraw txt r) (withdraw txt r).wire :=
  (Pb.withdrawRequest_runs (hf.withdraws r hr).1).sent (Pb.withdrawRequest_writes (hf.withdraws r hr).1) (hf.withdraws r hr).2
theorem order_sent (hf : Fitting txt s) {o : OrderRec} (ho : o ∈ s.orders) : Pb.Sent Pb.orderFields {} (order txt o) (order txt o).wire :=
  (Pb.order_runs (hf.orders o ho).1).sent (Pb.order_writes (hf.orders o ho).1) (hf.orders o ho).2

theorem holds_value (hf : Fitting txt s) {e : Entity} {v : Val} (h : Holds enc s e v) : ∃ b, value txt v = some b := by
  cases e <;> simp only [Holds] at h
  case lastPairId => rw [h.2]; exact ⟨_, (id_sent _).marshal⟩
  case lastPoolId => rw [h.2]; exact ⟨_, (id_sent _).marshal⟩
  case pair => obtain ⟨p, hp, _, rfl⟩ := h; exact ⟨_, (pair_sent hf hp).marshal⟩
  case pairIndex => obtain ⟨p, hp, _, _, rfl⟩ := h; exact ⟨_, (id_sent _).marshal⟩
  case pairByDenoms => rw [h.1]; exact ⟨_, rfl⟩
  case pool => obtain ⟨p, hp, _, rfl⟩ := h; exact ⟨_, (pool_sent hf hp).marshal⟩
  case poolByReserve => obtain ⟨p, hp, _, rfl⟩ := h; exact ⟨_, (id_sent _).marshal⟩
  case poolByPair => rw [h.1]; exact ⟨_, rfl⟩
  case deposit => obtain ⟨p, hp, _, _, rfl⟩ := h; exact ⟨_, (deposit_sent hf hp).marshal⟩
  case depositIndex => rw [h.1]; exact ⟨_, rfl⟩
  case withdraw => obtain ⟨p, hp, _, _, rfl⟩ := h; exact ⟨_, (withdraw_sent hf hp).marshal⟩
  case withdrawIndex => rw [h.1]; exact ⟨_, rfl⟩
  case order => obtain ⟨p, hp, _, _, rfl⟩ := h; exact ⟨_, (order_sent hf hp).marshal⟩
  case orderIndex => rw [h.1]; exact ⟨_, rfl⟩
  case numMM => obtain ⟨_, _, _, _, _, _, rfl⟩ := h; exact ⟨_, rfl⟩

theorem id_inj {a b : UInt64} (e : value txt (.id a) = value txt (.id b)) : Val.id a = Val.id b := by
  have := marshal_inj (id_sent a) (id_sent b) e
  simp only [Pb.UInt64Value.mk.injEq] at this
  rw [UInt64.toNat_inj.1 this]

theorem holds_inj (ht : Texts txt) (hf : Fitting txt s) (hf' : Fitting txt s') {e : Entity} {v v' : Val} (h : Holds enc s e v)
    (h' : Holds enc s' e v') (hv : value txt v = value txt v') : v = v' := by
  cases e <;> simp only [Holds] at h h'
  case lastPairId => rw [h.2, h'.2] at hv ⊢; exact id_inj hv
  case lastPoolId => rw [h.2, h'.2] at hv ⊢; exact id_inj hv
  case pair =>
    obtain ⟨p, hp, _, rfl⟩ := h; obtain ⟨q, hq, _, rfl⟩ := h'
    rw [pair_inj ht (marshal_inj (pair_sent hf hp) (pair_sent hf' hq) hv)]
  case pairIndex => obtain ⟨p, hp, _, _, rfl⟩ := h; obtain ⟨q, hq, _, _, rfl⟩ := h'; exact id_inj hv
  case pairByDenoms => rw [h.1, h'.1]
  case pool =>
    obtain ⟨p, hp, _, rfl⟩ := h; obtain ⟨q, hq, _, rfl⟩ := h'
    rw [pool_inj ht (marshal_inj (pool_sent hf hp) (pool_sent hf' hq) hv)]
  case poolByReserve => obtain ⟨p, hp, _, rfl⟩ := h; obtain ⟨q, hq, _, rfl⟩ := h'; exact id_inj hv
  case poolByPair => rw [h.1, h'.1]
  case deposit =>
    obtain ⟨p, hp, _, _, rfl⟩ := h; obtain ⟨q, hq, _, _, rfl⟩ := h'
    rw [deposit_inj ht (marshal_inj (deposit_sent hf hp) (deposit_sent hf' hq) hv)]
  case depositIndex => rw [h.1, h'.1]
  case withdraw =>
    obtain ⟨p, hp, _, _, rfl⟩ := h; obtain ⟨q, hq, _, _, rfl⟩ := h'
    rw [withdraw_inj ht (marshal_inj (withdraw_sent hf hp) (withdraw_sent hf' hq) hv)]
  case withdrawIndex => rw [h.1, h'.1]
  case order =>
    obtain ⟨p, hp, _, _, rfl⟩ := h; obtain ⟨q, hq, _, _, rfl⟩ := h'
    rw [order_inj ht (marshal_inj (order_sent hf hp) (order_sent hf' hq) hv)]
  case orderIndex => rw [h.1, h'.1]
  case numMM =>
    obtain ⟨_, _, _, _, _, _, rfl⟩ := h; obtain ⟨_, _, _, _, _, _, rfl⟩ := h'
    simp only [value, Option.some.injEq] at hv
    rw [Keys.be64_inj.1 hv]

theorem bytes_some {kv : Store} (h : ∀ e ∈ kv, ∃ b, value txt e.2 = some b) : ∃ d, bytes txt kv = some d := by
  induction kv with
  | nil => exact ⟨[], rfl⟩
  | cons e kv ih =>
    obtain ⟨b, hb⟩ := h e (by simp)
    obtain ⟨d, hd⟩ := ih (fun e he => h e (by simp [he]))
    unfold bytes at hd ⊢
    exact ⟨(e.1, b) :: d, by rw [List.mapM_cons, hb, hd]; rfl⟩

theorem bytes_mem : ∀ {kv : Store} {d : List (Keys.Bytes × Keys.Bytes)}, bytes txt kv = some d → ∀ e ∈ kv, ∃ b, value txt e.2 = some b ∧ (e.1, b) ∈ d
  | [], _, _, e, he => absurd he List.not_mem_nil
  | x :: kv, d, h, e, he => by
    unfold bytes at h
    rw [List.mapM_cons] at h
    cases hx : value txt x.2 with
    | none => rw [hx] at h; simp at h
    | some b =>
      cases hd : kv.mapM (fun e => (value txt e.2).map fun b => (e.1, b)) with
      | none => rw [hx, hd] at h; simp at h
      | some d' =>
        rw [hx, hd] at h
        have h : some ((x.1, b) :: d') = some d := h
        cases h
        rcases List.mem_cons.1 he with rfl | he
        · exact ⟨b, hx, by simp⟩
        · obtain ⟨c, h1, h2⟩ := bytes_mem (kv := kv) (d := d') hd e he
          exact ⟨c, h1, by simp [h2]⟩

theorem bytes_pointwise : ∀ {kv kv' : Store} {d : List (Keys.Bytes × Keys.Bytes)}, bytes txt kv = some d → bytes txt kv' = some d →
    (∀ e ∈ kv, ∀ e' ∈ kv', e.1 = e'.1 → value txt e.2 = value txt e'.2 → e.2 = e'.2) → kv = kv'
  | [], [], _, _, _, _ => rfl
  | [], x :: kv', d, h, h', _ => by
    have : bytes txt [] = some [] := rfl
    rw [this] at h; cases h
    obtain ⟨b, _, hb⟩ := bytes_mem h' x (by simp)
    exact absurd hb List.not_mem_nil
  | x :: kv, [], d, h, h', _ => by
    have : bytes txt [] = some [] := rfl
    rw [this] at h'; cases h'
    obtain ⟨b, _, hb⟩ := bytes_mem h x (by simp)
    exact absurd hb List.not_mem_nil
  | x :: kv, x' :: kv', d, h, h', hi => by
    have key : ∀ {x : Keys.Bytes × Val} {kv : Store}, bytes txt (x :: kv) = some d → ∃ b d', value txt x.2 = some b ∧ bytes txt kv = some d' ∧ d = (x.1, b) :: d' := by
      intro x kv h
      unfold bytes at h
      rw [List.mapM_cons] at h
      cases hx : value txt x.2 with
      | none => rw [hx] at h; simp at h
      | some b =>
        cases hd : kv.mapM (fun e => (value txt e.2).map fun b => (e.1, b)) with
        | none => rw [hx, hd] at h; simp at h
        | some d' =>
          rw [hx, hd] at h
          have h : some ((x.1, b) :: d') = some d := h
          cases h
          exact ⟨b, d', rfl, hd, rfl⟩
    obtain ⟨b, d1, h1, h2, rfl⟩ := key h
    obtain ⟨b', d2, h1', h2', e⟩ := key h'
    simp only [List.cons.injEq, Prod.mk.injEq] at e
    obtain ⟨⟨ek, rfl⟩, rfl⟩ := e
    have ev := hi x (by simp) x' (by simp) ek (h1.trans h1'.symm)
    rw [bytes_pointwise h2 h2' (fun e he e' he' => hi e (by simp [he]) e' (by simp [he'])), Prod.ext ek ev]

theorem Image.bytes_some (h : Image enc s kv) (hf : Fitting txt s) : ∃ d, bytes txt kv = some d :=
  Disk.bytes_some fun e he => by
    obtain ⟨_, _, _, hh⟩ := (h.rep.mem e.1 e.2).1 he
    exact holds_value hf hh

theorem image_bytes_eq (ht : Texts txt) (h : Image enc s kv) (h' : Image enc s' kv') (hf : Fitting txt s) (hf' : Fitting txt s')
    {d : List (Keys.Bytes × Keys.Bytes)} (hd : bytes txt kv = some d) (hd' : bytes txt kv' = some d) : kv = kv' :=
  bytes_pointwise hd hd' fun e he e' he' ek ev => by
    obtain ⟨a, ha, hka, hh⟩ := (h.rep.mem e.1 e.2).1 he
    obtain ⟨b, hb, hkb, hh'⟩ := (h'.rep.mem e'.1 e'.2).1 he'
    rw [← ek] at hkb
    have : a = b := Props.C32_no_collision a b _ ha hb hka hkb
    subst this
    exact holds_inj ht hf hf' hh hh' ev

end Verif.Dex.Disk

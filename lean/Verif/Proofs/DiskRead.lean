import Verif.Proofs.DiskReq
/-! # Reading the byte store -/
namespace Verif.Dex.KV
open Verif Verif.Dex Verif.Dex.Keys Verif.Spec.Keys Verif.Spec

variable {enc : Enc} {s : State} {kv kv' : Store}

/-- A look-up yields the record if there is one. -/
theorem Rep.fetch {H : Entity → Val → Prop} (h : Rep H kv) {e : Entity} (he : e.WellFormed) {k : Bytes} (hk : keyOf e = some k)
    {α : Type} {read : Val → Option α} {mk : α → Val} (hread : ∀ x, read (mk x) = some x) {r : Option α}
    (hH : ∀ v, H e v ↔ ∃ x, r = some x ∧ v = mk x) : fetch read kv k = some r := by
  unfold KV.fetch
  cases r with
  | none =>
    rw [h.get_none he hk (fun v hv => by obtain ⟨x, hx, _⟩ := (hH v).1 hv; cases hx)]
  | some x =>
    rw [(h.get he hk (v := mk x)).2 ((hH _).2 ⟨x, rfl, rfl⟩)]
    simp [hread]

theorem Sorted.find_key {α : Type} {key : α → Key} {l : List α} (h : Sorted key l) {k : Key} {x : α} :
    lookup key k l = some x ↔ x ∈ l ∧ key x = k := h.lookup_iff

theorem Image.getPair (h : Image enc s kv) {id : Nat} (hid : id < 2 ^ 64) : KV.getPair kv (u64 id) = some (s.getPair id) := by
  refine h.rep.fetch (e := .pair (u64 id)) trivial rfl (mk := .pair) (fun _ => rfl) (fun v => ?_)
  simp only [Holds, State.getPair]
  constructor
  · rintro ⟨p, hp, e, rfl⟩
    rw [u64_inj (h.stor.pairs p hp).1 hid] at e
    exact ⟨p, h.pairsS.lookup_iff.2 ⟨hp, by rw [← e]; rfl⟩, rfl⟩
  · rintro ⟨p, hp, rfl⟩
    obtain ⟨h1, h2⟩ := h.pairsS.lookup_iff.1 hp
    exact ⟨p, h1, by rw [show p.id = id from congrArg Prod.fst h2], rfl⟩

theorem Image.getPool (h : Image enc s kv) {id : Nat} (hid : id < 2 ^ 64) : KV.getPool kv (u64 id) = some (s.getPool id) := by
  refine h.rep.fetch (e := .pool (u64 id)) trivial rfl (mk := .pool) (fun _ => rfl) (fun v => ?_)
  simp only [Holds, State.getPool]
  constructor
  · rintro ⟨p, hp, e, rfl⟩
    rw [u64_inj (h.stor.pools p hp).1 hid] at e
    exact ⟨p, h.poolsS.lookup_iff.2 ⟨hp, by rw [← e]; rfl⟩, rfl⟩
  · rintro ⟨p, hp, rfl⟩
    obtain ⟨h1, h2⟩ := h.poolsS.lookup_iff.1 hp
    exact ⟨p, h1, by rw [show p.id = id from congrArg Prod.fst h2], rfl⟩

theorem Image.getDeposit (h : Image enc s kv) {pid id : Nat} (hp : pid < 2 ^ 64) (hid : id < 2 ^ 64) :
    KV.getDepositRequest kv (u64 pid) (u64 id) = some (lookup DepReq.key (pid, id) s.deposits) := by
  refine h.rep.fetch (e := .deposit (u64 pid) (u64 id)) trivial rfl (mk := .deposit) (fun _ => rfl) (fun v => ?_)
  simp only [Holds]
  constructor
  · rintro ⟨r, hr, e1, e2, rfl⟩
    have st := h.stor.deposits r hr
    rw [u64_inj st.1 hp] at e1
    rw [u64_inj st.2.1 hid] at e2
    exact ⟨r, h.depsS.lookup_iff.2 ⟨hr, by rw [← e1, ← e2]; rfl⟩, rfl⟩
  · rintro ⟨r, hr, rfl⟩
    obtain ⟨h1, h2⟩ := h.depsS.lookup_iff.1 hr
    exact ⟨r, h1, by rw [show r.poolId = pid from congrArg Prod.fst h2], by rw [show r.id = id from congrArg Prod.snd h2], rfl⟩

theorem Image.getWithdraw (h : Image enc s kv) {pid id : Nat} (hp : pid < 2 ^ 64) (hid : id < 2 ^ 64) :
    KV.getWithdrawRequest kv (u64 pid) (u64 id) = some (lookup WdReq.key (pid, id) s.withdraws) := by
  refine h.rep.fetch (e := .withdraw (u64 pid) (u64 id)) trivial rfl (mk := .withdraw) (fun _ => rfl) (fun v => ?_)
  simp only [Holds]
  constructor
  · rintro ⟨r, hr, e1, e2, rfl⟩
    have st := h.stor.withdraws r hr
    rw [u64_inj st.1 hp] at e1
    rw [u64_inj st.2.1 hid] at e2
    exact ⟨r, h.wdsS.lookup_iff.2 ⟨hr, by rw [← e1, ← e2]; rfl⟩, rfl⟩
  · rintro ⟨r, hr, rfl⟩
    obtain ⟨h1, h2⟩ := h.wdsS.lookup_iff.1 hr
    exact ⟨r, h1, by rw [show r.poolId = pid from congrArg Prod.fst h2], by rw [show r.id = id from congrArg Prod.snd h2], rfl⟩

theorem Image.getOrder (h : Image enc s kv) {pid id : Nat} (hp : pid < 2 ^ 64) (hid : id < 2 ^ 64) :
    KV.getOrder kv (u64 pid) (u64 id) = some (lookup OrderRec.key (pid, id) s.orders) := by
  refine h.rep.fetch (e := .order (u64 pid) (u64 id)) trivial rfl (mk := .order) (fun _ => rfl) (fun v => ?_)
  simp only [Holds]
  constructor
  · rintro ⟨r, hr, e1, e2, rfl⟩
    have st := h.stor.orders r hr
    rw [u64_inj st.1 hp] at e1
    rw [u64_inj st.2.1 hid] at e2
    exact ⟨r, h.ordersS.lookup_iff.2 ⟨hr, by rw [← e1, ← e2]; rfl⟩, rfl⟩
  · rintro ⟨r, hr, rfl⟩
    obtain ⟨h1, h2⟩ := h.ordersS.lookup_iff.1 hr
    exact ⟨r, h1, by rw [show r.pairId = pid from congrArg Prod.fst h2], by rw [show r.id = id from congrArg Prod.snd h2], rfl⟩

theorem Image.lastPairId (h : Image enc s kv) : KV.getLastPairId kv = some (u64 s.lastPairId) := by
  unfold KV.getLastPairId
  by_cases e : s.lastPairId = 0
  · rw [h.rep.get_none (e := .lastPairId) trivial rfl (fun v hv => hv.1 e), e]; rfl
  · rw [(h.rep.get (e := .lastPairId) trivial rfl (v := .id (u64 s.lastPairId))).2 ⟨e, rfl⟩]

theorem Image.lastPoolId (h : Image enc s kv) : KV.getLastPoolId kv = some (u64 s.lastPoolId) := by
  unfold KV.getLastPoolId
  by_cases e : s.lastPoolId = 0
  · rw [h.rep.get_none (e := .lastPoolId) trivial rfl (fun v hv => hv.1 e), e]; rfl
  · rw [(h.rep.get (e := .lastPoolId) trivial rfl (v := .id (u64 s.lastPoolId))).2 ⟨e, rfl⟩]

theorem Image.getPairByDenoms (h : Image enc s kv) (hsp : Spelling enc) {b q : Denom} (hb : Name (enc.denom b)) (hq : Name (enc.denom q)) :
    KV.getPairByDenoms enc kv b q = some (s.getPairByDenoms b q) := by
  unfold KV.getPairByDenoms
  have hfind : ∀ p, s.getPairByDenoms b q = some p ↔ p ∈ s.pairs ∧ p.base = b ∧ p.quote = q := by
    intro p
    constructor
    · intro hp
      have h1 := List.mem_of_find?_eq_some hp
      have h2 := List.find?_some hp
      simp at h2
      exact ⟨h1, h2⟩
    · rintro ⟨h1, rfl, rfl⟩
      cases hf : s.getPairByDenoms p.base p.quote with
      | none =>
        have := (List.find?_eq_none.1 hf) p h1
        simp at this
      | some x =>
        have g1 := List.mem_of_find?_eq_some hf
        have g2 := List.find?_some hf
        simp at g2
        rw [h.pairUniq x g1 p h1 g2.1 g2.2]
  have hf := h.rep.fetch (e := .pairIndex (enc.denom b) (enc.denom q)) ⟨hb, hq⟩ rfl (read := asId) (mk := .id) (fun _ => rfl)
    (r := (s.getPairByDenoms b q).map (fun p => u64 p.id)) (by
      intro v
      simp only [Holds]
      constructor
      · rintro ⟨p, hp, e1, e2, rfl⟩
        refine ⟨u64 p.id, ?_, rfl⟩
        rw [(hfind p).2 ⟨hp, hsp.denom _ _ (h.stor.pairs p hp).2.1 e1, hsp.denom _ _ (h.stor.pairs p hp).2.2 e2⟩]
        rfl
      · rintro ⟨x, hx, rfl⟩
        obtain ⟨p, hp, rfl⟩ := Option.map_eq_some_iff.1 hx
        obtain ⟨h1, rfl, rfl⟩ := (hfind p).1 hp
        exact ⟨p, h1, rfl, rfl, rfl⟩)
  rw [hf]
  cases hg : s.getPairByDenoms b q with
  | none => rfl
  | some p =>
    obtain ⟨h1, _⟩ := (hfind p).1 hg
    show KV.getPair kv (u64 p.id) = _
    rw [h.getPair (h.stor.pairs p h1).1]
    congr 1
    exact h.pairsS.lookup_iff.2 ⟨h1, rfl⟩

/-- The pool with this reserve account. -/
def reservePool (s : State) : Addr → Option PoolRec
  | .poolReserve id => s.getPool id
  | _ => none

theorem Image.getPoolByReserve (h : Image enc s kv) (hsp : Spelling enc) {a : Addr} (ha : Name (enc.addr a)) :
    KV.getPoolByReserveAddress enc kv a = some (reservePool s a) := by
  unfold KV.getPoolByReserveAddress
  obtain ⟨k, hk⟩ := Props.C32_key_defined (.poolByReserve (enc.addr a)) ha
  have hk' : getPoolByReserveAddressIndexKey (enc.addr a) = some k := hk
  rw [hk']
  simp only [Option.bind_some]
  have hf := h.rep.fetch (e := .poolByReserve (enc.addr a)) ha hk (read := asId) (mk := .id) (fun _ => rfl)
    (r := (reservePool s a).map (fun p => u64 p.id)) (by
      intro v
      simp only [Holds]
      constructor
      · rintro ⟨p, hp, e1, rfl⟩
        refine ⟨u64 p.id, ?_, rfl⟩
        have := hsp.addr _ _ (h.stor.pools p hp).2.2 e1
        subst this
        have : s.getPool p.id = some p := h.poolsS.lookup_iff.2 ⟨hp, rfl⟩
        simp only [reservePool, this, Option.map_some]
      · rintro ⟨x, hx, rfl⟩
        obtain ⟨p, hp, rfl⟩ := Option.map_eq_some_iff.1 hx
        cases a with
        | poolReserve id =>
          simp only [reservePool] at hp
          obtain ⟨h1, h2⟩ := h.poolsS.lookup_iff.1 hp
          exact ⟨p, h1, by rw [show p.id = id from congrArg Prod.fst h2], rfl⟩
        | _ => cases hp)
  rw [hf]
  cases a with
  | poolReserve id =>
    simp only [reservePool]
    cases hg : s.getPool id with
    | none => rfl
    | some p =>
      obtain ⟨h1, h2⟩ := h.poolsS.lookup_iff.1 hg
      show KV.getPool kv (u64 p.id) = _
      rw [h.getPool (h.stor.pools p h1).1]
      congr 1
      exact h.poolsS.lookup_iff.2 ⟨h1, rfl⟩
  | _ => rfl

theorem Image.numMM (h : Image enc s kv) (hsp : Spelling enc) {a p : Nat} (ha : Name (enc.addr (.user a))) (hp : p < 2 ^ 64) :
    KV.getNumMMOrders enc kv a (u64 p) = some (UInt32.ofNat (s.getNumMM a p)) := by
  unfold KV.getNumMMOrders
  obtain ⟨k, hk⟩ := Props.C32_key_defined (.numMM (enc.addr (.user a)) (u64 p)) ha
  have hk' : getNumMMOrdersKey (enc.addr (.user a)) (u64 p) = some k := hk
  rw [hk']
  simp only [Option.bind_some]
  cases hn : s.numMM a p with
  | none =>
    rw [h.rep.get_none (e := .numMM (enc.addr (.user a)) (u64 p)) ha hk]
    · simp [State.getNumMM, hn]
    · rintro v ⟨o, q, n, h1, h2, h3, _⟩
      have g := h.mm o q n h1
      have e1 := Addr.user.inj (hsp.addr _ _ g.2 h2)
      rw [u64_inj g.1 hp] at h3
      rw [e1, h3, hn] at h1
      cases h1
  | some n =>
    rw [(h.rep.get (e := .numMM (enc.addr (.user a)) (u64 p)) ha hk (v := .count (UInt32.ofNat n).toUInt64)).2
      ⟨a, p, n, hn, rfl, rfl, rfl⟩]
    simp [State.getNumMM, hn, asCount]

/-! ## Iterations -/

theorem visit_self {α : Type} (f : Bytes × Val → Option α) (L : List α) (g : α → Bytes × Val)
    (h : ∀ x ∈ L, f (g x) = some x) : visit f (L.map g) = some L := by
  have := visit_map f L g (fun x => x) h
  rwa [List.map_id'] at this

theorem keyLt_u64 {a b c d : Nat} (ha : a < 2 ^ 64) (hb : b < 2 ^ 64) (hc : c < 2 ^ 64) (hd : d < 2 ^ 64)
    (h : keyLt (a, b) (c, d) = true) : u64 a < u64 c ∨ (u64 a = u64 c ∧ u64 b < u64 d) := by
  rw [keyLt_iff] at h
  unfold u64
  rw [UInt64.lt_iff_toNat_lt, UInt64.lt_iff_toNat_lt, UInt64.toNat_ofNat_of_lt' ha, UInt64.toNat_ofNat_of_lt' hb,
    UInt64.toNat_ofNat_of_lt' hc, UInt64.toNat_ofNat_of_lt' hd]
  rcases h with h | ⟨h1, h2⟩
  · exact Or.inl h
  · simp only at h1 h2; subst h1; exact Or.inr ⟨rfl, h2⟩

theorem keyLt_u64_single {a c : Nat} (ha : a < 2 ^ 64) (hc : c < 2 ^ 64) (h : keyLt (a, 0) (c, 0) = true) : u64 a < u64 c := by
  rcases keyLt_u64 ha (by decide) hc (by decide) h with h | ⟨_, h⟩
  · exact h
  · exact absurd h (UInt64.lt_irrefl _)

theorem Pairwise.imp_mem {α : Type} {R S : α → α → Prop} {l : List α} (h : l.Pairwise R) (hi : ∀ a ∈ l, ∀ b ∈ l, R a b → S a b) :
    l.Pairwise S := by
  rw [List.pairwise_iff_forall_sublist] at *
  intro a b hab
  exact hi a (hab.subset (by simp)) b (hab.subset (by simp)) (h hab)

theorem Image.scan_pairs (h : Image enc s kv) :
    KV.scan kv pairKeyPrefix = s.pairs.map (fun p => (getPairKey (u64 p.id), .pair p)) :=
  h.rep.scan Props.C32_scan_kind.1 s.pairs (fun p => .pair (u64 p.id)) (fun p => getPairKey (u64 p.id)) .pair
    (fun _ _ => rfl) (Pairwise.imp_mem h.pairsS (fun a ha b hb hlt => (Props.C32_order _ _ 0 0 []).1.2
      (keyLt_u64_single (h.stor.pairs a ha).1 (h.stor.pairs b hb).1 hlt)))
    (fun p hp => ⟨⟨_, rfl⟩, p, hp, rfl, rfl⟩)
    (fun e v he hv => by obtain ⟨i, rfl⟩ := he; obtain ⟨p, hp, rfl, rfl⟩ := hv; exact ⟨p, hp, rfl, rfl⟩)

theorem Image.allPairs (h : Image enc s kv) : KV.allPairs kv = some s.pairs := by
  unfold KV.allPairs
  rw [h.scan_pairs]
  exact visit_self _ _ _ (fun _ _ => rfl)

theorem Image.scan_pools (h : Image enc s kv) :
    KV.scan kv poolKeyPrefix = s.pools.map (fun p => (getPoolKey (u64 p.id), .pool p)) :=
  h.rep.scan Props.C32_scan_kind.2.1 s.pools (fun p => .pool (u64 p.id)) (fun p => getPoolKey (u64 p.id)) .pool
    (fun _ _ => rfl) (Pairwise.imp_mem h.poolsS (fun a ha b hb hlt => (Props.C32_order _ _ 0 0 []).2.1.2
      (keyLt_u64_single (h.stor.pools a ha).1 (h.stor.pools b hb).1 hlt)))
    (fun p hp => ⟨⟨_, rfl⟩, p, hp, rfl, rfl⟩)
    (fun e v he hv => by obtain ⟨i, rfl⟩ := he; obtain ⟨p, hp, rfl, rfl⟩ := hv; exact ⟨p, hp, rfl, rfl⟩)

theorem Image.allPools (h : Image enc s kv) : KV.allPools kv = some s.pools := by
  unfold KV.allPools
  rw [h.scan_pools]
  exact visit_self _ _ _ (fun _ _ => rfl)

theorem Image.scan_deposits (h : Image enc s kv) :
    KV.scan kv depositRequestKeyPrefix = s.deposits.map (fun p => (getDepositRequestKey (u64 p.poolId) (u64 p.id), .deposit p)) :=
  h.rep.scan Props.C32_scan_kind.2.2.1 s.deposits (fun p => .deposit (u64 p.poolId) (u64 p.id))
    (fun p => getDepositRequestKey (u64 p.poolId) (u64 p.id)) .deposit
    (fun _ _ => rfl) (Pairwise.imp_mem h.depsS (fun a ha b hb hlt => (Props.C32_order _ _ _ _ []).2.2.2.1.2
      (keyLt_u64 (h.stor.deposits a ha).1 (h.stor.deposits a ha).2.1 (h.stor.deposits b hb).1 (h.stor.deposits b hb).2.1 hlt)))
    (fun p hp => ⟨⟨_, _, rfl⟩, p, hp, rfl, rfl, rfl⟩)
    (fun e v he hv => by obtain ⟨i, j, rfl⟩ := he; obtain ⟨p, hp, rfl, rfl, rfl⟩ := hv; exact ⟨p, hp, rfl, rfl⟩)

theorem Image.allDeposits (h : Image enc s kv) : KV.allDeposits kv = some s.deposits := by
  unfold KV.allDeposits
  rw [h.scan_deposits]
  exact visit_self _ _ _ (fun _ _ => rfl)

theorem Image.scan_withdraws (h : Image enc s kv) :
    KV.scan kv withdrawRequestKeyPrefix = s.withdraws.map (fun p => (getWithdrawRequestKey (u64 p.poolId) (u64 p.id), .withdraw p)) :=
  h.rep.scan Props.C32_scan_kind.2.2.2.1 s.withdraws (fun p => .withdraw (u64 p.poolId) (u64 p.id))
    (fun p => getWithdrawRequestKey (u64 p.poolId) (u64 p.id)) .withdraw
    (fun _ _ => rfl) (Pairwise.imp_mem h.wdsS (fun a ha b hb hlt => (Props.C32_order _ _ _ _ []).2.2.2.2.1.2
      (keyLt_u64 (h.stor.withdraws a ha).1 (h.stor.withdraws a ha).2.1 (h.stor.withdraws b hb).1 (h.stor.withdraws b hb).2.1 hlt)))
    (fun p hp => ⟨⟨_, _, rfl⟩, p, hp, rfl, rfl, rfl⟩)
    (fun e v he hv => by obtain ⟨i, j, rfl⟩ := he; obtain ⟨p, hp, rfl, rfl, rfl⟩ := hv; exact ⟨p, hp, rfl, rfl⟩)

theorem Image.allWithdraws (h : Image enc s kv) : KV.allWithdraws kv = some s.withdraws := by
  unfold KV.allWithdraws
  rw [h.scan_withdraws]
  exact visit_self _ _ _ (fun _ _ => rfl)

theorem Image.orders_sorted (h : Image enc s kv) {l : List OrderRec} (hl : l.Sublist s.orders) :
    l.Pairwise (fun a b => getOrderKey (u64 a.pairId) (u64 a.id) < getOrderKey (u64 b.pairId) (u64 b.id)) :=
  List.Pairwise.sublist hl (Pairwise.imp_mem h.ordersS (fun a ha b hb hlt => (Props.C32_order _ _ _ _ []).2.2.2.2.2.1.2
      (keyLt_u64 (h.stor.orders a ha).1 (h.stor.orders a ha).2.1 (h.stor.orders b hb).1 (h.stor.orders b hb).2.1 hlt)))

theorem Image.scan_orders (h : Image enc s kv) :
    KV.scan kv orderKeyPrefix = s.orders.map (fun p => (getOrderKey (u64 p.pairId) (u64 p.id), .order p)) :=
  h.rep.scan Props.C32_scan_kind.2.2.2.2.1 s.orders (fun p => .order (u64 p.pairId) (u64 p.id))
    (fun p => getOrderKey (u64 p.pairId) (u64 p.id)) .order
    (fun _ _ => rfl) (h.orders_sorted (List.Sublist.refl _))
    (fun p hp => ⟨⟨_, _, rfl⟩, p, hp, rfl, rfl, rfl⟩)
    (fun e v he hv => by obtain ⟨i, j, rfl⟩ := he; obtain ⟨p, hp, rfl, rfl, rfl⟩ := hv; exact ⟨p, hp, rfl, rfl⟩)

theorem Image.allOrders (h : Image enc s kv) : KV.allOrders kv = some s.orders := by
  unfold KV.allOrders
  rw [h.scan_orders]
  exact visit_self _ _ _ (fun _ _ => rfl)

theorem Image.ordersByPair (h : Image enc s kv) {pid : Nat} (hp : pid < 2 ^ 64) :
    KV.ordersByPair kv (u64 pid) = some (s.orders.filter (fun o => o.pairId = pid)) := by
  unfold KV.ordersByPair
  have hn : Name [1] := ⟨by decide, by decide⟩
  rw [h.rep.scan (Props.C32_scan_one (u64 pid) [1] [1] hn hn).2.1 (s.orders.filter (fun o => o.pairId = pid))
    (fun p => .order (u64 p.pairId) (u64 p.id))
    (fun p => getOrderKey (u64 p.pairId) (u64 p.id)) .order
    (fun _ _ => rfl) (h.orders_sorted (List.filter_sublist))
    (fun p hp => by
      obtain ⟨h1, h2⟩ := List.mem_filter.1 hp
      simp only [decide_eq_true_eq] at h2
      exact ⟨⟨u64 p.id, by rw [h2]⟩, p, h1, rfl, rfl, rfl⟩)
    (fun e v he hv => by
      obtain ⟨i, rfl⟩ := he
      obtain ⟨p, hp', e1, rfl, rfl⟩ := hv
      rw [u64_inj (h.stor.orders p hp').1 hp] at e1
      exact ⟨p, List.mem_filter.2 ⟨hp', by simp [e1]⟩, by rw [e1], rfl⟩)]
  exact visit_self _ _ _ (fun _ _ => rfl)

theorem Image.scan_poolsByPair (h : Image enc s kv) {pid : Nat} (hp : pid < 2 ^ 64) :
    KV.scan kv (getPoolsByPairIndexKeyPrefix (u64 pid)) =
      (s.pools.filter (fun p => p.pairId = pid)).map (fun p => (getPoolsByPairIndexKey (u64 p.pairId) (u64 p.id), .empty)) := by
  have hn : Name [1] := ⟨by decide, by decide⟩
  exact h.rep.scan (Props.C32_scan_one (u64 pid) [1] [1] hn hn).1 (s.pools.filter (fun p => p.pairId = pid))
    (fun p => .poolByPair (u64 p.pairId) (u64 p.id))
    (fun p => getPoolsByPairIndexKey (u64 p.pairId) (u64 p.id)) (fun _ => .empty)
    (fun _ _ => rfl) (Pairwise.imp_mem (h.poolsS.filter _) (fun a ha b hb hlt => by
      obtain ⟨ha1, ha2⟩ := List.mem_filter.1 ha
      obtain ⟨hb1, hb2⟩ := List.mem_filter.1 hb
      simp only [decide_eq_true_eq] at ha2 hb2
      rw [ha2, hb2]
      exact (Props.C32_order _ _ _ _ []).2.2.1.2 (Or.inr ⟨rfl, keyLt_u64_single (h.stor.pools a ha1).1 (h.stor.pools b hb1).1 hlt⟩)))
    (fun p hp => by
      obtain ⟨h1, h2⟩ := List.mem_filter.1 hp
      simp only [decide_eq_true_eq] at h2
      exact ⟨⟨u64 p.id, by rw [h2]⟩, rfl, p, h1, rfl, rfl⟩)
    (fun e v he hv => by
      obtain ⟨i, rfl⟩ := he
      obtain ⟨rfl, p, hp', e1, rfl⟩ := hv
      rw [u64_inj (h.stor.pools p hp').2.1 hp] at e1
      exact ⟨p, List.mem_filter.2 ⟨hp', by simp [e1]⟩, by rw [e1], rfl⟩)

theorem Image.poolsByPair (h : Image enc s kv) {pid : Nat} (hp : pid < 2 ^ 64) :
    KV.poolsByPair kv (u64 pid) = some ((s.pools.filter (fun p => p.pairId = pid)).map some) := by
  unfold KV.poolsByPair
  rw [h.scan_poolsByPair hp]
  rw [visit_map _ _ _ some]
  intro p hp
  obtain ⟨h1, _⟩ := List.mem_filter.1 hp
  simp only
  rw [Props.C33_pools_by_pair]
  simp only [Option.bind_some]
  rw [h.getPool (h.stor.pools p h1).1]
  congr 1
  exact h.poolsS.lookup_iff.2 ⟨h1, rfl⟩

theorem Image.depositsBy (h : Image enc s kv) (hsp : Spelling enc) {n : Nat} (hn : Name (enc.addr (.user n)))
    (hl : (enc.addr (.user n)).length ≤ 245) :
    KV.depositsBy enc kv (.user n) = some ((s.deposits.filter (fun r => r.depositor = n)).map some) := by
  unfold KV.depositsBy
  obtain ⟨q, hq, hs⟩ := (Props.C32_scan_one 0 (enc.addr (.user n)) [1] hn ⟨by decide, by decide⟩).2.2.2.2.1
  rw [hq]
  simp only [Option.bind_some]
  have hd : ∀ i j : UInt64, ∃ k, getDepositRequestIndexKey (enc.addr (.user n)) i j = some k :=
    fun i j => Props.C32_key_defined (.depositIndex (enc.addr (.user n)) i j) hn
  have hmem : ∀ r ∈ s.deposits.filter (fun r => r.depositor = n), r ∈ s.deposits ∧ r.depositor = n := fun r hr => by
    simpa using List.mem_filter.1 hr
  have hsome : ∀ r ∈ s.deposits.filter (fun r => r.depositor = n), getDepositRequestIndexKey (enc.addr (.user r.depositor)) (u64 r.poolId) (u64 r.id) =
      some ((getDepositRequestIndexKey (enc.addr (.user r.depositor)) (u64 r.poolId) (u64 r.id)).getD []) := fun r hr => by
    rw [(hmem r hr).2]
    obtain ⟨k, hk⟩ := hd (u64 r.poolId) (u64 r.id)
    rw [hk]; rfl
  rw [h.rep.scan hs (s.deposits.filter (fun r => r.depositor = n))
    (fun r => .depositIndex (enc.addr (.user r.depositor)) (u64 r.poolId) (u64 r.id))
    (fun r => (getDepositRequestIndexKey (enc.addr (.user r.depositor)) (u64 r.poolId) (u64 r.id)).getD []) (fun _ => .empty)
    hsome (Pairwise.imp_mem (h.depsS.filter _) (fun a ha b hb hlt => by
      have ka := hsome a ha
      have kb := hsome b hb
      obtain ⟨ha1, ha2⟩ := hmem a ha
      obtain ⟨hb1, hb2⟩ := hmem b hb
      rw [ha2] at ka ⊢
      rw [hb2] at kb ⊢
      exact ((Props.C32_order _ _ _ _ (enc.addr (.user n))).2.2.2.2.2.2.1 _ _ ka kb).2
        (keyLt_u64 (h.stor.deposits a ha1).1 (h.stor.deposits a ha1).2.1 (h.stor.deposits b hb1).1 (h.stor.deposits b hb1).2.1 hlt)))
    (fun r hr => by
      obtain ⟨h1, h2⟩ := hmem r hr
      exact ⟨⟨u64 r.poolId, u64 r.id, by rw [h2]⟩, rfl, r, h1, rfl, rfl, rfl⟩)
    (fun e v he hv => by
      obtain ⟨i, j, rfl⟩ := he
      obtain ⟨rfl, r, hr, e1, rfl, rfl⟩ := hv
      have e2 := Addr.user.inj (hsp.addr _ _ (h.stor.deposits r hr).2.2 e1)
      exact ⟨r, List.mem_filter.2 ⟨hr, by simp [e2]⟩, by rw [e2], rfl⟩)]
  rw [visit_map _ _ _ some]
  intro r hr
  have hk := hsome r hr
  obtain ⟨h1, h2⟩ := hmem r hr
  have hp := (Props.C33_address_keys (enc.addr (.user n)) (u64 r.poolId) (u64 r.id) hn.1 hl).1
  simp only
  rw [h2] at hk ⊢
  rw [hk, Option.bind_some] at hp
  rw [hp]
  simp only [Option.bind_some]
  rw [h.getDeposit (h.stor.deposits r h1).1 (h.stor.deposits r h1).2.1]
  congr 1
  exact h.depsS.lookup_iff.2 ⟨h1, rfl⟩

theorem Image.withdrawsBy (h : Image enc s kv) (hsp : Spelling enc) {n : Nat} (hn : Name (enc.addr (.user n)))
    (hl : (enc.addr (.user n)).length ≤ 245) :
    KV.withdrawsBy enc kv (.user n) = some ((s.withdraws.filter (fun r => r.withdrawer = n)).map some) := by
  unfold KV.withdrawsBy
  obtain ⟨q, hq, hs⟩ := (Props.C32_scan_one 0 (enc.addr (.user n)) [1] hn ⟨by decide, by decide⟩).2.2.2.2.2.1
  rw [hq]
  simp only [Option.bind_some]
  have hd : ∀ i j : UInt64, ∃ k, getWithdrawRequestIndexKey (enc.addr (.user n)) i j = some k :=
    fun i j => Props.C32_key_defined (.withdrawIndex (enc.addr (.user n)) i j) hn
  have hmem : ∀ r ∈ s.withdraws.filter (fun r => r.withdrawer = n), r ∈ s.withdraws ∧ r.withdrawer = n := fun r hr => by
    simpa using List.mem_filter.1 hr
  have hsome : ∀ r ∈ s.withdraws.filter (fun r => r.withdrawer = n), getWithdrawRequestIndexKey (enc.addr (.user r.withdrawer)) (u64 r.poolId) (u64 r.id) =
      some ((getWithdrawRequestIndexKey (enc.addr (.user r.withdrawer)) (u64 r.poolId) (u64 r.id)).getD []) := fun r hr => by
    rw [(hmem r hr).2]
    obtain ⟨k, hk⟩ := hd (u64 r.poolId) (u64 r.id)
    rw [hk]; rfl
  rw [h.rep.scan hs (s.withdraws.filter (fun r => r.withdrawer = n))
    (fun r => .withdrawIndex (enc.addr (.user r.withdrawer)) (u64 r.poolId) (u64 r.id))
    (fun r => (getWithdrawRequestIndexKey (enc.addr (.user r.withdrawer)) (u64 r.poolId) (u64 r.id)).getD []) (fun _ => .empty)
    hsome (Pairwise.imp_mem (h.wdsS.filter _) (fun a ha b hb hlt => by
      have ka := hsome a ha
      have kb := hsome b hb
      obtain ⟨ha1, ha2⟩ := hmem a ha
      obtain ⟨hb1, hb2⟩ := hmem b hb
      rw [ha2] at ka ⊢
      rw [hb2] at kb ⊢
      exact ((Props.C32_order _ _ _ _ (enc.addr (.user n))).2.2.2.2.2.2.2.1 _ _ ka kb).2
        (keyLt_u64 (h.stor.withdraws a ha1).1 (h.stor.withdraws a ha1).2.1 (h.stor.withdraws b hb1).1 (h.stor.withdraws b hb1).2.1 hlt)))
    (fun r hr => by
      obtain ⟨h1, h2⟩ := hmem r hr
      exact ⟨⟨u64 r.poolId, u64 r.id, by rw [h2]⟩, rfl, r, h1, rfl, rfl, rfl⟩)
    (fun e v he hv => by
      obtain ⟨i, j, rfl⟩ := he
      obtain ⟨rfl, r, hr, e1, rfl, rfl⟩ := hv
      have e2 := Addr.user.inj (hsp.addr _ _ (h.stor.withdraws r hr).2.2 e1)
      exact ⟨r, List.mem_filter.2 ⟨hr, by simp [e2]⟩, by rw [e2], rfl⟩)]
  rw [visit_map _ _ _ some]
  intro r hr
  have hk := hsome r hr
  obtain ⟨h1, h2⟩ := hmem r hr
  have hp := (Props.C33_address_keys (enc.addr (.user n)) (u64 r.poolId) (u64 r.id) hn.1 hl).2.1
  simp only
  rw [h2] at hk ⊢
  rw [hk, Option.bind_some] at hp
  rw [hp]
  simp only [Option.bind_some]
  rw [h.getWithdraw (h.stor.withdraws r h1).1 (h.stor.withdraws r h1).2.1]
  congr 1
  exact h.wdsS.lookup_iff.2 ⟨h1, rfl⟩

theorem Image.scan_ordersBy (h : Image enc s kv) (hsp : Spelling enc) {n : Nat} (hn : Name (enc.addr (.user n))) :
    ∃ q, getOrderIndexKeyPrefix (enc.addr (.user n)) = some q ∧
    (∀ r ∈ s.orders.filter (fun r => r.orderer = n), (r ∈ s.orders ∧ r.orderer = n) ∧
      getOrderIndexKey (enc.addr (.user n)) (u64 r.pairId) (u64 r.id) = some (q ++ (be64 (u64 r.pairId) ++ be64 (u64 r.id)))) ∧
    KV.scan kv q = (s.orders.filter (fun r => r.orderer = n)).map (fun r => (q ++ (be64 (u64 r.pairId) ++ be64 (u64 r.id)), .empty)) := by
  obtain ⟨q, hq, hs⟩ := (Props.C32_scan_one 0 (enc.addr (.user n)) [1] hn ⟨by decide, by decide⟩).2.2.2.2.2.2
  have hkey : ∀ i j, getOrderIndexKey (enc.addr (.user n)) i j = some (q ++ (be64 i ++ be64 j)) := by
    intro i j
    unfold getOrderIndexKeyPrefix at hq
    unfold getOrderIndexKey
    obtain ⟨l, hl, rfl⟩ := Option.map_eq_some_iff.1 hq
    rw [hl]
    simp
  refine ⟨q, hq, fun r hr => ⟨by simpa using List.mem_filter.1 hr, hkey _ _⟩, ?_⟩
  have hmem : ∀ r ∈ s.orders.filter (fun r => r.orderer = n), r ∈ s.orders ∧ r.orderer = n := fun r hr => by
    simpa using List.mem_filter.1 hr
  exact h.rep.scan hs (s.orders.filter (fun r => r.orderer = n))
    (fun r => .orderIndex (enc.addr (.user r.orderer)) (u64 r.pairId) (u64 r.id))
    (fun r => q ++ (be64 (u64 r.pairId) ++ be64 (u64 r.id))) (fun _ => .empty)
    (fun r hr => by rw [(hmem r hr).2]; exact hkey _ _) (Pairwise.imp_mem (h.ordersS.filter _) (fun a ha b hb hlt => by
      obtain ⟨ha1, ha2⟩ := hmem a ha
      obtain ⟨hb1, hb2⟩ := hmem b hb
      exact ((Props.C32_order _ _ _ _ (enc.addr (.user n))).2.2.2.2.2.2.2.2.1 _ _ (hkey _ _) (hkey _ _)).2
        (keyLt_u64 (h.stor.orders a ha1).1 (h.stor.orders a ha1).2.1 (h.stor.orders b hb1).1 (h.stor.orders b hb1).2.1 hlt)))
    (fun r hr => by
      obtain ⟨h1, h2⟩ := hmem r hr
      exact ⟨⟨u64 r.pairId, u64 r.id, by rw [h2]⟩, rfl, r, h1, rfl, rfl, rfl⟩)
    (fun e v he hv => by
      obtain ⟨i, j, rfl⟩ := he
      obtain ⟨rfl, r, hr, e1, rfl, rfl⟩ := hv
      have e2 := Addr.user.inj (hsp.addr _ _ (h.stor.orders r hr).2.2 e1)
      exact ⟨r, List.mem_filter.2 ⟨hr, by simp [e2]⟩, by rw [e2], rfl⟩)

theorem Image.ordersBy (h : Image enc s kv) (hsp : Spelling enc) {n : Nat} (hn : Name (enc.addr (.user n)))
    (hl : (enc.addr (.user n)).length ≤ 245) :
    KV.ordersBy enc kv (.user n) = some ((s.orders.filter (fun r => r.orderer = n)).map some) := by
  unfold KV.ordersBy
  obtain ⟨q, hq, hs⟩ := (Props.C32_scan_one 0 (enc.addr (.user n)) [1] hn ⟨by decide, by decide⟩).2.2.2.2.2.2
  rw [hq]
  simp only [Option.bind_some]
  have hd : ∀ i j : UInt64, ∃ k, getOrderIndexKey (enc.addr (.user n)) i j = some k :=
    fun i j => Props.C32_key_defined (.orderIndex (enc.addr (.user n)) i j) hn
  have hmem : ∀ r ∈ s.orders.filter (fun r => r.orderer = n), r ∈ s.orders ∧ r.orderer = n := fun r hr => by
    simpa using List.mem_filter.1 hr
  have hsome : ∀ r ∈ s.orders.filter (fun r => r.orderer = n), getOrderIndexKey (enc.addr (.user r.orderer)) (u64 r.pairId) (u64 r.id) =
      some ((getOrderIndexKey (enc.addr (.user r.orderer)) (u64 r.pairId) (u64 r.id)).getD []) := fun r hr => by
    rw [(hmem r hr).2]
    obtain ⟨k, hk⟩ := hd (u64 r.pairId) (u64 r.id)
    rw [hk]; rfl
  rw [h.rep.scan hs (s.orders.filter (fun r => r.orderer = n))
    (fun r => .orderIndex (enc.addr (.user r.orderer)) (u64 r.pairId) (u64 r.id))
    (fun r => (getOrderIndexKey (enc.addr (.user r.orderer)) (u64 r.pairId) (u64 r.id)).getD []) (fun _ => .empty)
    hsome (Pairwise.imp_mem (h.ordersS.filter _) (fun a ha b hb hlt => by
      have ka := hsome a ha
      have kb := hsome b hb
      obtain ⟨ha1, ha2⟩ := hmem a ha
      obtain ⟨hb1, hb2⟩ := hmem b hb
      rw [ha2] at ka ⊢
      rw [hb2] at kb ⊢
      exact ((Props.C32_order _ _ _ _ (enc.addr (.user n))).2.2.2.2.2.2.2.2.1 _ _ ka kb).2
        (keyLt_u64 (h.stor.orders a ha1).1 (h.stor.orders a ha1).2.1 (h.stor.orders b hb1).1 (h.stor.orders b hb1).2.1 hlt)))
    (fun r hr => by
      obtain ⟨h1, h2⟩ := hmem r hr
      exact ⟨⟨u64 r.pairId, u64 r.id, by rw [h2]⟩, rfl, r, h1, rfl, rfl, rfl⟩)
    (fun e v he hv => by
      obtain ⟨i, j, rfl⟩ := he
      obtain ⟨rfl, r, hr, e1, rfl, rfl⟩ := hv
      have e2 := Addr.user.inj (hsp.addr _ _ (h.stor.orders r hr).2.2 e1)
      exact ⟨r, List.mem_filter.2 ⟨hr, by simp [e2]⟩, by rw [e2], rfl⟩)]
  rw [visit_map _ _ _ some]
  intro r hr
  have hk := hsome r hr
  obtain ⟨h1, h2⟩ := hmem r hr
  have hp := (Props.C33_address_keys (enc.addr (.user n)) (u64 r.pairId) (u64 r.id) hn.1 hl).2.2.1
  simp only
  rw [h2] at hk ⊢
  rw [hk, Option.bind_some] at hp
  rw [hp]
  simp only [Option.bind_some]
  rw [h.getOrder (h.stor.orders r h1).1 (h.stor.orders r h1).2.1]
  congr 1
  exact h.ordersS.lookup_iff.2 ⟨h1, rfl⟩

/-- The iteration over the counters reports every counter exactly once. -/
theorem Image.allNumMM (h : Image enc s kv) (hsp : Spelling enc) (hl : ∀ n, (enc.addr (.user n)).length ≤ 245) :
    ∃ l, KV.allNumMM kv = some l ∧ l.Nodup ∧ ∀ x, x ∈ l ↔ ∃ a p n, s.numMM a p = some n ∧
      x = ((enc.addr (.user a), u64 p), UInt32.ofNat n) := by
  unfold KV.allNumMM
  have hmem : ∀ e ∈ KV.scan kv numMMOrdersKeyPrefix, ∃ a p n, s.numMM a p = some n ∧ Name (enc.addr (.user a)) ∧
      getNumMMOrdersKey (enc.addr (.user a)) (u64 p) = some e.1 ∧ e.2 = .count (UInt32.ofNat n).toUInt64 := by
    rintro ⟨k, v⟩ he
    rw [scan_eq, List.mem_filter, h.rep.mem] at he
    simp only [decide_eq_true_eq] at he
    obtain ⟨⟨e, w, hk, hv⟩, hp⟩ := he
    obtain ⟨a, p, rfl⟩ := (Props.C32_scan_kind.2.2.2.2.2 e k w hk).1 hp
    obtain ⟨o, q, n, h1, rfl, rfl, rfl⟩ := hv
    exact ⟨o, q, n, h1, w, hk, rfl⟩
  have hread : ∀ e ∈ KV.scan kv numMMOrdersKeyPrefix, ∃ a p n, s.numMM a p = some n ∧
      getNumMMOrdersKey (enc.addr (.user a)) (u64 p) = some e.1 ∧
      ((parseNumMMOrdersKey e.1).bind fun x => (asCount e.2).map fun n => (x, n)) =
        some ((enc.addr (.user a), u64 p), UInt32.ofNat n) := by
    intro e he
    obtain ⟨a, p, n, h1, hn, hk, hv⟩ := hmem e he
    have hp := (Props.C33_address_keys (enc.addr (.user a)) (u64 p) 0 hn.1 (hl a)).2.2.2
    rw [hk, Option.bind_some] at hp
    exact ⟨a, p, n, h1, hk, by rw [hp, hv]; simp [asCount]⟩
  have key : ∀ L : Store, Ordered L → (∀ e ∈ L, e ∈ KV.scan kv numMMOrdersKeyPrefix) →
      ∃ l, visit (fun e => (parseNumMMOrdersKey e.1).bind fun x => (asCount e.2).map fun n => (x, n)) L = some l ∧ l.Nodup ∧
        ∀ x, x ∈ l ↔ ∃ e ∈ L, ((parseNumMMOrdersKey e.1).bind fun x => (asCount e.2).map fun n => (x, n)) = some x := by
    intro L hL hsub
    induction L with
    | nil => exact ⟨[], rfl, List.nodup_nil, by simp⟩
    | cons e L ih =>
      obtain ⟨l, h1, h2, h3⟩ := ih hL.tail (fun x hx => hsub x (List.mem_cons_of_mem _ hx))
      obtain ⟨a, p, n, g1, g2, g3⟩ := hread e (hsub e (List.mem_cons_self ..))
      refine ⟨((enc.addr (.user a), u64 p), UInt32.ofNat n) :: l, ?_, ?_, ?_⟩
      · unfold visit at h1 ⊢
        rw [List.mapM_cons, g3, h1]; rfl
      · rw [List.nodup_cons]
        refine ⟨fun hx => ?_, h2⟩
        obtain ⟨e', he', hx'⟩ := (h3 _).1 hx
        obtain ⟨a', p', n', f1, f2, f3⟩ := hread e' (hsub e' (List.mem_cons_of_mem _ he'))
        rw [f3] at hx'
        simp only [Option.some.injEq, Prod.mk.injEq] at hx'
        rw [hx'.1.1, hx'.1.2, g2] at f2
        have := hL.head e' he'
        rw [← Option.some.inj f2] at this
        exact absurd this (bytes_irrefl _)
      · intro x
        rw [List.mem_cons, h3]
        constructor
        · rintro (rfl | ⟨e', he', hx⟩)
          · exact ⟨e, List.mem_cons_self .., g3⟩
          · exact ⟨e', List.mem_cons_of_mem _ he', hx⟩
        · rintro ⟨e', he', hx⟩
          rcases List.mem_cons.1 he' with rfl | he'
          · rw [g3] at hx; exact Or.inl (Option.some.inj hx).symm
          · exact Or.inr ⟨e', he', hx⟩
  have hord : Ordered (KV.scan kv numMMOrdersKeyPrefix) := by
    rw [scan_eq]; exact List.Pairwise.filter _ h.rep.ordered
  obtain ⟨l, h1, h2, h3⟩ := key _ hord (fun _ he => he)
  refine ⟨l, h1, h2, fun x => ?_⟩
  rw [h3]
  constructor
  · rintro ⟨e, he, hx⟩
    obtain ⟨a, p, n, g1, g2, g3⟩ := hread e he
    rw [g3] at hx
    exact ⟨a, p, n, g1, (Option.some.inj hx).symm⟩
  · rintro ⟨a, p, n, g1, rfl⟩
    have hn := (h.mm a p n g1).2
    obtain ⟨k, hk⟩ := Props.C32_key_defined (.numMM (enc.addr (.user a)) (u64 p)) hn
    refine ⟨(k, .count (UInt32.ofNat n).toUInt64), ?_, ?_⟩
    · rw [scan_eq, List.mem_filter, h.rep.mem]
      simp only [decide_eq_true_eq]
      exact ⟨⟨.numMM (enc.addr (.user a)) (u64 p), hn, hk, a, p, n, g1, rfl, rfl, rfl⟩,
        (Props.C32_scan_kind.2.2.2.2.2 (.numMM (enc.addr (.user a)) (u64 p)) k hn hk).2 ⟨_, _, rfl⟩⟩
    · have hp := (Props.C33_address_keys (enc.addr (.user a)) (u64 p) 0 hn.1 (hl a)).2.2.2
      have hk' : getNumMMOrdersKey (enc.addr (.user a)) (u64 p) = some k := hk
      rw [hk', Option.bind_some] at hp
      simp only
      rw [hp]; simp [asCount]

end Verif.Dex.KV

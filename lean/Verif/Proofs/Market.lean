import Verif.Proofs.Store
import Verif.Proofs.Bank
import Verif.Model.Batch
/-!
# One market among others

`Slice q Q s t`: the states `s` and `t` agree on the market of pair `q`, `Q` telling which pool ids belong to it.
-/
namespace Verif.Dex
open Verif Verif.Amm Verif.Spec

variable {α : Type} {key : α → Key}

theorem upsert_least {v : α} : ∀ {l : List α}, (∀ x ∈ l, keyLt (key v) (key x) = true) → upsert key v l = v :: l
  | [], _ => rfl
  | a :: l, h => by
    have ha := h a (by simp)
    rw [upsert_cons, if_neg (fun e => keyLt_irrefl (key v) (by rwa [e] at ha)), if_pos ha]

theorem filter_upsert {v : α} {P : α → Bool} : ∀ {l : List α}, Sorted key l → (∀ x ∈ l, key x = key v → P x = P v) →
    (upsert key v l).filter P = if P v then upsert key v (l.filter P) else l.filter P
  | [], _, _ => by
    show [v].filter P = _
    cases h : P v <;> simp [h, upsert]
  | a :: l, hs, hk => by
    have ih := filter_upsert (v := v) (P := P) hs.tail (fun x hx => hk x (by simp [hx]))
    rw [upsert_cons]
    by_cases h1 : key a = key v
    · rw [if_pos h1]
      have ha := hk a (by simp) h1
      cases h : P v
      · rw [List.filter_cons_of_neg (by simp [h]), List.filter_cons_of_neg (by simp [ha, h])]; simp
      · rw [List.filter_cons_of_pos h, List.filter_cons_of_pos (by rw [ha, h]), if_pos rfl, upsert_cons, if_pos h1]
    rw [if_neg h1]
    by_cases h2 : keyLt (key v) (key a) = true
    · rw [if_pos h2]
      have hl : ∀ x ∈ (a :: l).filter P, keyLt (key v) (key x) = true := by
        intro x hx
        rcases List.mem_cons.1 (List.mem_of_mem_filter hx) with rfl | hx
        · exact h2
        · exact keyLt_trans h2 (hs.head x hx)
      cases h : P v
      · rw [List.filter_cons_of_neg (by simp [h])]; simp
      · rw [List.filter_cons_of_pos h, if_pos rfl, upsert_least hl]
    · rw [if_neg h2]
      cases ha : P a
      · rw [List.filter_cons_of_neg (by simp [ha]), List.filter_cons_of_neg (by simp [ha]), ih]
      · rw [List.filter_cons_of_pos ha, List.filter_cons_of_pos ha, ih]
        cases h : P v
        · simp
        · rw [if_pos rfl, if_pos rfl, upsert_cons, if_neg h1, if_neg h2]

theorem lookup_slice {P : α → Bool} {k : Key} {l : List α} (h : ∀ x ∈ l, key x = k → P x = true) :
    lookup key k l = lookup key k (l.filter P) := by
  induction l with
  | nil => rfl
  | cons a l ih =>
    have ih := ih fun x hx => h x (by simp [hx])
    rw [lookup_cons]
    by_cases e : key a = k
    · rw [if_pos e, List.filter_cons_of_pos (h a (by simp) e), lookup_cons, if_pos e]
    · rw [if_neg e, ih]
      cases ha : P a
      · rw [List.filter_cons_of_neg (by simp [ha])]
      · rw [List.filter_cons_of_pos ha, lookup_cons, if_neg e]

/-- The two states agree on the market of pair `q`. -/
structure Slice (q : Nat) (Q : Nat → Bool) (s t : State) : Prop where
  params : s.params = t.params
  height : s.height = t.height
  time : s.time = t.time
  pairs : s.pairs.filter (fun p => p.id == q) = t.pairs.filter (fun p => p.id == q)
  pools : s.pools.filter (fun p => p.pairId == q) = t.pools.filter (fun p => p.pairId == q)
  orders : s.orders.filter (fun o => o.pairId == q) = t.orders.filter (fun o => o.pairId == q)
  deposits : s.deposits.filter (fun r => Q r.poolId) = t.deposits.filter (fun r => Q r.poolId)
  withdraws : s.withdraws.filter (fun r => Q r.poolId) = t.withdraws.filter (fun r => Q r.poolId)
  bal : ∀ id, Q id = true → ∀ d, s.bank.bal (.poolReserve id) d = t.bank.bal (.poolReserve id) d
  sup : ∀ id, Q id = true → s.bank.supply (.pool id) = t.bank.supply (.pool id)

/-- What is assumed of a single state. -/
structure Tidy (q : Nat) (Q : Nat → Bool) (s : State) : Prop where
  pairsS : Sorted Pair.key s.pairs
  poolsS : Sorted PoolRec.key s.pools
  ordersS : Sorted OrderRec.key s.orders
  depsS : Sorted DepReq.key s.deposits
  wdsS : Sorted WdReq.key s.withdraws
  mine : ∀ p ∈ s.pools, (Q p.id = true ↔ p.pairId = q)
  coin : ∀ r ∈ s.withdraws, r.coin.denom = .pool r.poolId
  dust : ∀ id, Q id = true → s.params.dustCollector ≠ .poolReserve id

section
variable {q : Nat} {Q : Nat → Bool} {s t u s' t' : State}

theorem Slice.refl (s : State) : Slice q Q s s := ⟨rfl, rfl, rfl, rfl, rfl, rfl, rfl, rfl, fun _ _ _ => rfl, fun _ _ => rfl⟩

theorem Slice.symm (h : Slice q Q s t) : Slice q Q t s :=
  ⟨h.params.symm, h.height.symm, h.time.symm, h.pairs.symm, h.pools.symm, h.orders.symm, h.deposits.symm, h.withdraws.symm,
    fun i hi d => (h.bal i hi d).symm, fun i hi => (h.sup i hi).symm⟩

theorem Slice.trans (h : Slice q Q s t) (h' : Slice q Q t u) : Slice q Q s u :=
  ⟨h.params.trans h'.params, h.height.trans h'.height, h.time.trans h'.time, h.pairs.trans h'.pairs, h.pools.trans h'.pools,
    h.orders.trans h'.orders, h.deposits.trans h'.deposits, h.withdraws.trans h'.withdraws,
    fun i hi d => (h.bal i hi d).trans (h'.bal i hi d), fun i hi => (h.sup i hi).trans (h'.sup i hi)⟩

/-! ## Elementary changes -/

theorem Tidy.setOrder (h : Tidy q Q s) (o : OrderRec) : Tidy q Q (s.setOrder o) := { h with ordersS := h.ordersS.upsert o }
theorem Tidy.setPair (h : Tidy q Q s) (p : Pair) : Tidy q Q (s.setPair p) := { h with pairsS := h.pairsS.upsert p }
theorem Tidy.setDeposit (h : Tidy q Q s) (r : DepReq) : Tidy q Q (s.setDeposit r) := { h with depsS := h.depsS.upsert r }
theorem Tidy.setWithdraw (h : Tidy q Q s) {r : WdReq} (hr : r.coin.denom = .pool r.poolId) : Tidy q Q (s.setWithdraw r) :=
  { h with
    wdsS := h.wdsS.upsert r
    coin := fun x hx => by
      rcases mem_upsert_of hx with rfl | hx
      · exact hr
      · exact h.coin x hx }
theorem Tidy.setPool (h : Tidy q Q s) {p : PoolRec} (hp : Q p.id = true ↔ p.pairId = q) : Tidy q Q (s.setPool p) :=
  { h with
    poolsS := h.poolsS.upsert p
    mine := fun x hx => by
      rcases mem_upsert_of hx with rfl | hx
      · exact hp
      · exact h.mine x hx }
theorem Tidy.bank (h : Tidy q Q s) (b : Bank) : Tidy q Q { s with bank := b } := { h with }
theorem Tidy.numMM (h : Tidy q Q s) (f : Nat → Nat → Option Nat) : Tidy q Q { s with numMM := f } := { h with }
theorem Tidy.shortfall (h : Tidy q Q s) (f : Nat → Int) : Tidy q Q { s with shortfall := f } := { h with }

theorem key_order_P {o x : OrderRec} (h : x.key = o.key) : (x.pairId == q) = (o.pairId == q) := by rw [(Prod.mk.inj h).1]

theorem Slice.setOrder (hs : Tidy q Q s) (ht : Tidy q Q t) (h : Slice q Q s t) (o : OrderRec) :
    Slice q Q (s.setOrder o) (t.setOrder o) :=
  { h with
    orders := by
      show (upsert OrderRec.key o s.orders).filter _ = (upsert OrderRec.key o t.orders).filter _
      rw [filter_upsert hs.ordersS (fun _ _ e => key_order_P e), filter_upsert ht.ordersS (fun _ _ e => key_order_P e), h.orders] }

theorem Slice.setOrder_other (hs : Tidy q Q s) {o : OrderRec} (ho : o.pairId ≠ q) : Slice q Q s (s.setOrder o) :=
  { Slice.refl s with
    orders := by
      show _ = (upsert OrderRec.key o s.orders).filter _
      rw [filter_upsert hs.ordersS (fun _ _ e => key_order_P e), if_neg (by simpa using ho)] }

theorem key_pair_P {o x : Pair} (h : x.key = o.key) : (x.id == q) = (o.id == q) := by rw [(Prod.mk.inj h).1]

theorem Slice.setPair (hs : Tidy q Q s) (ht : Tidy q Q t) (h : Slice q Q s t) (p : Pair) : Slice q Q (s.setPair p) (t.setPair p) :=
  { h with
    pairs := by
      show (upsert Pair.key p s.pairs).filter _ = (upsert Pair.key p t.pairs).filter _
      rw [filter_upsert hs.pairsS (fun _ _ e => key_pair_P e), filter_upsert ht.pairsS (fun _ _ e => key_pair_P e), h.pairs] }

theorem Slice.setPair_other (hs : Tidy q Q s) {p : Pair} (hp : p.id ≠ q) : Slice q Q s (s.setPair p) :=
  { Slice.refl s with
    pairs := by
      show _ = (upsert Pair.key p s.pairs).filter _
      rw [filter_upsert hs.pairsS (fun _ _ e => key_pair_P e), if_neg (by simpa using hp)] }

theorem pool_P (hs : Tidy q Q s) {p x : PoolRec} (hp : Q p.id = true ↔ p.pairId = q) (hx : x ∈ s.pools) (e : x.key = p.key) :
    (x.pairId == q) = (p.pairId == q) := by
  have hid : x.id = p.id := (Prod.mk.inj e).1
  have h := hs.mine x hx
  rw [hid, hp] at h
  by_cases h1 : x.pairId = q
  · rw [beq_iff_eq.2 h1, beq_iff_eq.2 (h.2 h1)]
  · rw [beq_eq_false_iff_ne.2 h1, beq_eq_false_iff_ne.2 (fun e => h1 (h.1 e))]

theorem Slice.setPool (hs : Tidy q Q s) (ht : Tidy q Q t) (h : Slice q Q s t) {p : PoolRec} (hp : Q p.id = true ↔ p.pairId = q) :
    Slice q Q (s.setPool p) (t.setPool p) :=
  { h with
    pools := by
      show (upsert PoolRec.key p s.pools).filter _ = (upsert PoolRec.key p t.pools).filter _
      rw [filter_upsert hs.poolsS (v := p) (P := fun p => p.pairId == q) (fun _ hx e => pool_P hs hp hx e), filter_upsert ht.poolsS (v := p) (P := fun p => p.pairId == q) (fun _ hx e => pool_P ht hp hx e), h.pools] }

theorem Slice.setPool_other (hs : Tidy q Q s) {p : PoolRec} (hp : Q p.id = true ↔ p.pairId = q) (hn : p.pairId ≠ q) :
    Slice q Q s (s.setPool p) :=
  { Slice.refl s with
    pools := by
      show _ = (upsert PoolRec.key p s.pools).filter _
      rw [filter_upsert hs.poolsS (v := p) (P := fun p => p.pairId == q) (fun _ hx e => pool_P hs hp hx e), if_neg (by simpa using hn)] }

theorem key_dep_P {o x : DepReq} (h : x.key = o.key) : Q x.poolId = Q o.poolId := by rw [(Prod.mk.inj h).1]
theorem key_wd_P {o x : WdReq} (h : x.key = o.key) : Q x.poolId = Q o.poolId := by rw [(Prod.mk.inj h).1]

theorem Slice.setDeposit (hs : Tidy q Q s) (ht : Tidy q Q t) (h : Slice q Q s t) (r : DepReq) :
    Slice q Q (s.setDeposit r) (t.setDeposit r) :=
  { h with
    deposits := by
      show (upsert DepReq.key r s.deposits).filter _ = (upsert DepReq.key r t.deposits).filter _
      rw [filter_upsert hs.depsS (fun _ _ e => key_dep_P e), filter_upsert ht.depsS (fun _ _ e => key_dep_P e), h.deposits] }

theorem Slice.setDeposit_other (hs : Tidy q Q s) {r : DepReq} (hr : Q r.poolId = false) : Slice q Q s (s.setDeposit r) :=
  { Slice.refl s with
    deposits := by
      show _ = (upsert DepReq.key r s.deposits).filter _
      rw [filter_upsert hs.depsS (fun _ _ e => key_dep_P e), if_neg (by simp [hr])] }

theorem Slice.setWithdraw (hs : Tidy q Q s) (ht : Tidy q Q t) (h : Slice q Q s t) (r : WdReq) :
    Slice q Q (s.setWithdraw r) (t.setWithdraw r) :=
  { h with
    withdraws := by
      show (upsert WdReq.key r s.withdraws).filter _ = (upsert WdReq.key r t.withdraws).filter _
      rw [filter_upsert hs.wdsS (fun _ _ e => key_wd_P e), filter_upsert ht.wdsS (fun _ _ e => key_wd_P e), h.withdraws] }

theorem Slice.setWithdraw_other (hs : Tidy q Q s) {r : WdReq} (hr : Q r.poolId = false) : Slice q Q s (s.setWithdraw r) :=
  { Slice.refl s with
    withdraws := by
      show _ = (upsert WdReq.key r s.withdraws).filter _
      rw [filter_upsert hs.wdsS (fun _ _ e => key_wd_P e), if_neg (by simp [hr])] }

/-- The banks agree on the reserves and pool coins of the market. -/
def BankEq (Q : Nat → Bool) (b c : Bank) : Prop :=
  (∀ id, Q id = true → ∀ d, b.bal (.poolReserve id) d = c.bal (.poolReserve id) d) ∧
  ∀ id, Q id = true → b.supply (.pool id) = c.supply (.pool id)

theorem Slice.bankEq (h : Slice q Q s t) : BankEq Q s.bank t.bank := ⟨h.bal, h.sup⟩
theorem Slice.bank (h : Slice q Q s t) {b c : Bank} (hb : BankEq Q b c) : Slice q Q { s with bank := b } { t with bank := c } :=
  { h with bal := hb.1, sup := hb.2 }
theorem Slice.bank_other {b : Bank} (hb : BankEq Q s.bank b) : Slice q Q s { s with bank := b } :=
  { Slice.refl s with bal := hb.1, sup := hb.2 }
theorem BankEq.refl (b : Bank) : BankEq Q b b := ⟨fun _ _ _ => rfl, fun _ _ => rfl⟩
theorem BankEq.symm {b c : Bank} (h : BankEq Q b c) : BankEq Q c b := ⟨fun i hi d => (h.1 i hi d).symm, fun i hi => (h.2 i hi).symm⟩
theorem BankEq.trans {a b c : Bank} (h : BankEq Q a b) (h' : BankEq Q b c) : BankEq Q a c :=
  ⟨fun i hi d => (h.1 i hi d).trans (h'.1 i hi d), fun i hi => (h.2 i hi).trans (h'.2 i hi)⟩

theorem bankEq_send {b c b' c' : Bank} {src dst : Addr} {cs : Coins} (h : BankEq Q b c) (hb : b.send src dst cs = some b')
    (hc : c.send src dst cs = some c') : BankEq Q b' c' := by
  obtain ⟨-, -, e1, f1⟩ := send_some hb
  obtain ⟨-, -, e2, f2⟩ := send_some hc
  exact ⟨fun i hi d => by rw [f1, f2, h.1 i hi d], fun i hi => by rw [e1, e2, h.2 i hi]⟩

theorem bankEq_send_other {b b' : Bank} {src dst : Addr} {cs : Coins} (hb : b.send src dst cs = some b')
    (h1 : ∀ id, Q id = true → src ≠ .poolReserve id) (h2 : ∀ id, Q id = true → dst ≠ .poolReserve id) : BankEq Q b b' := by
  obtain ⟨-, -, e1, f1⟩ := send_some hb
  refine ⟨fun i hi d => ?_, fun i hi => by rw [e1]⟩
  rw [f1, transferEffect, if_neg (fun e => h2 i hi e.symm), if_neg (fun e => h1 i hi e.symm)]
  omega

theorem bankEq_run {op : BulkOp} {b c b' c' : Bank} (h : BankEq Q b c) (hb : op.run b = some b') (hc : op.run c = some c') :
    BankEq Q b' c' := by
  obtain ⟨e1, f1, -⟩ := run_some hb
  obtain ⟨e2, f2, -⟩ := run_some hc
  exact ⟨fun i hi d => by rw [f1, f2, h.1 i hi d], fun i hi => by rw [e1, e2, h.2 i hi]⟩

/-- The transfers leave the reserves of the market alone. -/
def Away (Q : Nat → Bool) (op : BulkOp) : Prop := ∀ id, Q id = true → ∀ d, totalEffect op (.poolReserve id) d = 0

theorem away_nil : Away Q [] := fun _ _ _ => rfl

theorem Away.queue {op : BulkOp} (h : Away Q op) {src dst : Addr} {cs : Coins} (h1 : ∀ id, Q id = true → src ≠ .poolReserve id)
    (h2 : ∀ id, Q id = true → dst ≠ .poolReserve id) : Away Q (op.queue src dst cs) := by
  intro i hi d
  rw [queue_effect, h i hi d, transferEffect, if_neg (fun e => h2 i hi e.symm), if_neg (fun e => h1 i hi e.symm)]
  omega

theorem bankEq_run_other {op : BulkOp} {b b' : Bank} (h : Away Q op) (hb : op.run b = some b') : BankEq Q b b' := by
  obtain ⟨e1, f1, -⟩ := run_some hb
  exact ⟨fun i hi d => by rw [f1, h i hi d]; omega, fun i hi => by rw [e1]⟩

/-! ## Loops over a store -/

/-- Two runs over lists that agree on the elements of the market, with other elements in between. -/
theorem slice_forEach {β : Type} {P : β → Bool} {f : β → State → Option State} {ok : β → Prop}
    (tidy : ∀ x s s', ok x → Tidy q Q s → f x s = some s' → Tidy q Q s')
    (other : ∀ x s s', ok x → P x = false → Tidy q Q s → f x s = some s' → Slice q Q s s')
    (same : ∀ x s s' t t', ok x → P x = true → Tidy q Q s → Tidy q Q t → Slice q Q s t → f x s = some s' → f x t = some t' →
      Slice q Q s' t') :
    ∀ (l m : List β) (s s' t t' : State), (∀ x ∈ l, ok x) → (∀ x ∈ m, ok x) → l.filter P = m.filter P → Tidy q Q s → Tidy q Q t →
      Slice q Q s t → forEach f l s = some s' → forEach f m t = some t' → Slice q Q s' t' ∧ Tidy q Q s' ∧ Tidy q Q t' := by
  intro l
  induction l with
  | nil =>
    intro m
    induction m with
    | nil =>
      intro s s' t t' _ _ _ hs ht h e1 e2
      simp only [forEach, Option.some.injEq] at e1 e2
      subst e1 e2
      exact ⟨h, hs, ht⟩
    | cons y m ih =>
      intro s s' t t' hl hm hf hs ht h e1 e2
      have hy : P y = false := by
        cases hP : P y
        · rfl
        · rw [List.filter_cons_of_pos hP] at hf; cases hf
      rw [List.filter_cons_of_neg (by simp [hy])] at hf
      rw [forEach] at e2
      obtain ⟨t1, e3, e4⟩ := Option.bind_eq_some_iff.1 e2
      exact ih s s' t1 t' hl (fun x hx => hm x (by simp [hx])) hf hs (tidy y t t1 (hm y (by simp)) ht e3)
        (h.trans (other y t t1 (hm y (by simp)) hy ht e3)) e1 e4
  | cons x l ih =>
    intro m
    cases hx : P x
    · intro s s' t t' hl hm hf hs ht h e1 e2
      rw [List.filter_cons_of_neg (by simp [hx])] at hf
      rw [forEach] at e1
      obtain ⟨s1, e3, e4⟩ := Option.bind_eq_some_iff.1 e1
      exact ih m s1 s' t t' (fun x hx => hl x (by simp [hx])) hm hf (tidy x s s1 (hl x (by simp)) hs e3) ht
        ((other x s s1 (hl x (by simp)) hx hs e3).symm.trans h) e4 e2
    · induction m with
      | nil =>
        intro s s' t t' hl hm hf
        rw [List.filter_cons_of_pos hx] at hf; cases hf
      | cons y m ihm =>
        intro s s' t t' hl hm hf hs ht h e1 e2
        cases hy : P y
        · rw [List.filter_cons_of_neg (a := y) (by simp [hy])] at hf
          rw [forEach] at e2
          obtain ⟨t1, e3, e4⟩ := Option.bind_eq_some_iff.1 e2
          exact ihm s s' t1 t' hl (fun x hx => hm x (by simp [hx])) hf hs (tidy y t t1 (hm y (by simp)) ht e3)
            (h.trans (other y t t1 (hm y (by simp)) hy ht e3)) e1 e4
        · rw [List.filter_cons_of_pos hx, List.filter_cons_of_pos hy] at hf
          obtain ⟨rfl, hf2⟩ := List.cons.inj hf
          rw [forEach] at e1 e2
          obtain ⟨s1, e3, e4⟩ := Option.bind_eq_some_iff.1 e1
          obtain ⟨t1, e5, e6⟩ := Option.bind_eq_some_iff.1 e2
          have hox := hl x (by simp)
          exact ih m s1 s' t1 t' (fun x hx => hl x (by simp [hx])) (fun x hx => hm x (by simp [hx])) hf2 (tidy x s s1 hox hs e3)
            (tidy x t t1 hox ht e5) (same x s s1 t t1 hox hx hs ht h e3 e5) e4 e6

/-! ## Finishing an order -/

theorem finishOrder_tidy {o : OrderRec} {st : OStatus} (hs : Tidy q Q s) (e : finishOrder o st s = some s') : Tidy q Q s' := by
  unfold finishOrder at e
  split at e
  · cases e; exact hs
  · split at e
    · cases e
    · split at e
      · cases e; exact ((hs.bank _).setOrder { o with status := st }).numMM _
      · cases e; exact (hs.bank _).setOrder { o with status := st }

/-- The bank after an order is finished, if it succeeds. -/
theorem finishOrder_form {o : OrderRec} {st : OStatus} (e : finishOrder o st s = some s') :
    (o.status.shouldBeDeleted = true ∧ s' = s) ∨ (o.status.shouldBeDeleted = false ∧
      ∃ b f, BankEq Q s.bank b ∧ s' = { ({ s with bank := b }.setOrder { o with status := st }) with numMM := f }) := by
  unfold finishOrder at e
  split at e
  · rename_i h
    cases e; exact Or.inl ⟨h, rfl⟩
  · rename_i h
    refine Or.inr ⟨by simpa using h, ?_⟩
    split at e
    · cases e
    · rename_i b hb
      have hq : BankEq Q s.bank b := by
        split at hb
        · obtain ⟨p, -, hb⟩ := Option.bind_eq_some_iff.1 hb
          exact bankEq_send_other hb (fun _ _ => by simp) (fun _ _ => by simp)
        · cases hb; exact BankEq.refl _
      split at e
      · cases e; exact ⟨b, _, hq, rfl⟩
      · cases e; exact ⟨b, _, hq, rfl⟩

theorem Slice.numMM (h : Slice q Q s t) (f g : Nat → Nat → Option Nat) : Slice q Q { s with numMM := f } { t with numMM := g } := { h with }

theorem finishOrder_slice {o : OrderRec} {st : OStatus} (hs : Tidy q Q s) (ht : Tidy q Q t) (h : Slice q Q s t)
    (e1 : finishOrder o st s = some s') (e2 : finishOrder o st t = some t') : Slice q Q s' t' := by
  rcases finishOrder_form (Q := Q) e1 with ⟨a, rfl⟩ | ⟨a, b, f, hb, rfl⟩ <;>
    rcases finishOrder_form (Q := Q) e2 with ⟨a', rfl⟩ | ⟨a', c, g, hc, rfl⟩
  · exact h
  · rw [a] at a'; cases a'
  · rw [a] at a'; cases a'
  · exact (Slice.setOrder (hs.bank b) (ht.bank c) (h.bank (hb.symm.trans (h.bankEq.trans hc))) _).numMM _ _

theorem finishOrder_other {o : OrderRec} {st : OStatus} (ho : o.pairId ≠ q) (hs : Tidy q Q s) (e : finishOrder o st s = some s') :
    Slice q Q s s' := by
  rcases finishOrder_form (Q := Q) e with ⟨-, rfl⟩ | ⟨-, b, f, hb, rfl⟩
  · exact Slice.refl _
  · have h : Slice q Q s ({ s with bank := b }.setOrder { o with status := st }) :=
      (Slice.bank_other hb).trans (Slice.setOrder_other (hs.bank b) (o := { o with status := st }) ho)
    exact { h with }

end

end Verif.Dex

import Verif.Proofs.MarketBatch
import Verif.Proofs.Ranges
import Verif.Proofs.AtomWF
import Verif.Spec.Market
/-!
# One market among others: messages and histories
-/
namespace Verif.Dex
open Verif Verif.Amm Verif.Spec

variable {q : Nat} {Q : Nat → Bool} {s t s' t' : State}

/-! ## Messages about other markets -/

theorem Slice.setOrder_eq (hs : Tidy q Q s) (ht : Tidy q Q t) (h : Slice q Q s t) {o o' : OrderRec} (e : o = o') :
    Slice q Q (s.setOrder o) (t.setOrder o') := e ▸ h.setOrder hs ht o
theorem Slice.setDeposit_eq (hs : Tidy q Q s) (ht : Tidy q Q t) (h : Slice q Q s t) {r r' : DepReq} (e : r = r') :
    Slice q Q (s.setDeposit r) (t.setDeposit r') := e ▸ h.setDeposit hs ht r
theorem Slice.setWithdraw_eq (hs : Tidy q Q s) (ht : Tidy q Q t) (h : Slice q Q s t) {r r' : WdReq} (e : r = r') :
    Slice q Q (s.setWithdraw r) (t.setWithdraw r') := e ▸ h.setWithdraw hs ht r

/-- Sorted lists with the same elements are equal. -/
theorem sorted_ext {α : Type} {key : α → Key} : ∀ {l m : List α}, Sorted key l → Sorted key m → (∀ x, x ∈ l ↔ x ∈ m) → l = m
  | [], [], _, _, _ => rfl
  | [], b :: m, _, _, h => by have := (h b).2 (by simp); cases this
  | a :: l, [], _, _, h => by have := (h a).1 (by simp); cases this
  | a :: l, b :: m, hl, hm, h => by
    have hab : a = b := by
      rcases List.mem_cons.1 ((h a).1 (by simp)) with e | e
      · exact e
      · rcases List.mem_cons.1 ((h b).2 (by simp)) with e' | e'
        · exact e'.symm
        · exact (keyLt_irrefl _ (keyLt_trans (hm.head a e) (hl.head b e'))).elim
    subst hab
    refine congrArg (a :: ·) (sorted_ext hl.tail hm.tail fun x => ?_)
    constructor
    · intro hx
      rcases List.mem_cons.1 ((h x).1 (by simp [hx])) with e | e
      · exact absurd (by rw [e]) (hl.head_ne x hx)
      · exact e
    · intro hx
      rcases List.mem_cons.1 ((h x).2 (by simp [hx])) with e | e
      · exact absurd (by rw [e]) (hm.head_ne x hx)
      · exact e

theorem pool_not (hQ : Q n = true → m = q) (h : m ≠ q) : Q n = false := Bool.eq_false_iff.2 fun c => h (hQ c)

theorem createPair_other {m : MsgCreatePair} (hs : Tidy q Q s) (hq : s.lastPairId + 1 ≠ q)
    (hfee : ∀ id, Q id = true → s.params.feeCollector ≠ .poolReserve id) (e : createPair m s = some s') : Slice q Q s s' := by
  unfold createPair at e
  split at e
  · cases e
  · split at e
    · cases e
    · rename_i b hb
      cases e
      have h1 : Slice q Q s { s with bank := b } := Slice.bank_other (bankEq_send_other hb (fun _ _ => by simp) hfee)
      have h2 : Slice q Q { s with bank := b } { s with bank := b, lastPairId := s.lastPairId + 1 } := { Slice.refl _ with }
      have h3 : Tidy q Q { s with bank := b, lastPairId := s.lastPairId + 1 } := { hs with }
      exact (h1.trans h2).trans (Slice.setPair_other h3 (p := newPair (s.lastPairId + 1) m.base m.quote) hq)

theorem createPoolBank_other {u : State} {creator id : Nat} {coins : Coins} {supply : Int} {b : Bank} (hid : Q id = false)
    (hfee : ∀ id, Q id = true → u.params.feeCollector ≠ .poolReserve id) (e : createPoolBank u creator id coins supply = some b) :
    BankEq Q u.bank b := by
  unfold createPoolBank at e
  obtain ⟨b1, e1, e⟩ := Option.bind_eq_some_iff.1 e
  obtain ⟨b2, e2, e⟩ := Option.bind_eq_some_iff.1 e
  obtain ⟨b3, e3, e⟩ := Option.bind_eq_some_iff.1 e
  have hne : ∀ i, Q i = true → Addr.poolReserve id ≠ .poolReserve i := by
    intro i hi c
    injection c with c
    rw [c, hi] at hid; cases hid
  exact (((bankEq_send_other e1 (fun _ _ => by simp) hne).trans (bankEq_send_other e2 (fun _ _ => by simp) hfee)).trans
    (bankEq_mint_other hid e3)).trans (bankEq_send_other e (fun _ _ => by simp) (fun _ _ => by simp))

theorem newPool_other {pairId creator : Nat} {range : Option (Int × Int)} {coins : Coins} {supply : Int} {b : Bank} (hs : Tidy q Q s)
    (hid : Q (s.lastPoolId + 1) = false) (hp : pairId ≠ q)
    (hfee : ∀ id, Q id = true → s.params.feeCollector ≠ .poolReserve id)
    (e : createPoolBank ({ s with lastPoolId := s.lastPoolId + 1 }.setPool (newPool (s.lastPoolId + 1) pairId creator range)) creator
      (s.lastPoolId + 1) coins supply = some b) :
    Slice q Q s { ({ s with lastPoolId := s.lastPoolId + 1 }.setPool (newPool (s.lastPoolId + 1) pairId creator range)) with bank := b } := by
  have h1 : Slice q Q s { s with lastPoolId := s.lastPoolId + 1 } := { Slice.refl _ with }
  have h2 : Tidy q Q { s with lastPoolId := s.lastPoolId + 1 } := { hs with }
  have h3 := Slice.setPool_other h2 (p := newPool (s.lastPoolId + 1) pairId creator range)
    (by show Q (s.lastPoolId + 1) = true ↔ pairId = q; rw [hid]; simp [hp]) hp
  exact (h1.trans h3).trans (Slice.bank_other (createPoolBank_other hid hfee e))

theorem getPair_id {id : Nat} {p : Pair} (h : s.getPair id = some p) : p.id = id := (Prod.mk.inj (lookup_some_mem h).2).1

theorem createPool_other {m : MsgCreatePool} (hs : Tidy q Q s) (hid : Q (s.lastPoolId + 1) = false) (hp : m.pairId ≠ q)
    (hfee : ∀ id, Q id = true → s.params.feeCollector ≠ .poolReserve id) (e : createPool m s = some s') : Slice q Q s s' := by
  unfold createPool at e
  split at e
  · cases e
  · rename_i pair hv
    have hpid : pair.id = m.pairId := by
      unfold validateCreatePool at hv
      split at hv
      · cases hv
      · rename_i pr hpr
        repeat (split at hv <;> try cases hv)
        exact getPair_id hpr
    split at e
    · cases e
    · simp only at e
      split at e
      · cases e
      · rename_i b hb
        cases e
        exact newPool_other hs hid (by rw [hpid]; exact hp) hfee hb

theorem createRangedPool_other {env : Env} {m : MsgCreateRangedPool} (hs : Tidy q Q s) (hid : Q (s.lastPoolId + 1) = false)
    (hp : m.pairId ≠ q) (hfee : ∀ id, Q id = true → s.params.feeCollector ≠ .poolReserve id)
    (e : createRangedPoolMsg env m s = some s') : Slice q Q s s' := by
  unfold createRangedPoolMsg at e
  split at e
  · cases e
  · rename_i pair hv
    have hpid : pair.id = m.pairId := by
      unfold validateCreateRangedPool at hv
      split at hv
      · cases hv
      split at hv
      · cases hv
      split at hv
      · cases hv
      split at hv
      · cases hv
      split at hv
      · cases hv
      split at hv
      · cases hv
      · rename_i pr hpr
        repeat (split at hv <;> try cases hv)
        exact getPair_id hpr
    split at e
    · cases e
    · cases e
    · split at e
      · cases e
      · simp only at e
        split at e
        · cases e
        · rename_i b hb
          cases e
          exact newPool_other hs hid (by rw [hpid]; exact hp) hfee hb

theorem depositMsg_form {m : MsgDeposit} (e : depositMsg m s = some s') :
    ∃ pool b, s.getPool m.poolId = some pool ∧ s.bank.send (.user m.depositor) .globalEscrow m.coins = some b ∧
      s' = (({ s with bank := b }.setPool { pool with lastDepositId := pool.lastDepositId + 1 }).setDeposit
        ⟨pool.lastDepositId + 1, m.poolId, s.height, m.depositor, m.coins, [], 0, .notExecuted⟩) := by
  unfold depositMsg at e
  split at e
  · cases e
  · rename_i pool hp
    split at e
    · cases e
    split at e
    · cases e
    split at e
    · cases e
    split at e
    · cases e
    split at e
    · cases e
    split at e
    · cases e
    split at e
    · cases e
    · rename_i b hb
      cases e
      exact ⟨pool, b, hp, hb, rfl⟩

theorem withdrawMsg_form {m : MsgWithdraw} (e : withdrawMsg m s = some s') :
    ∃ pool b, s.getPool m.poolId = some pool ∧ s.bank.send (.user m.withdrawer) .globalEscrow [m.coin] = some b ∧
      m.coin.denom = .pool pool.id ∧
      s' = (({ s with bank := b }.setPool { pool with lastWithdrawId := pool.lastWithdrawId + 1 }).setWithdraw
        ⟨pool.lastWithdrawId + 1, m.poolId, s.height, m.withdrawer, m.coin, [], .notExecuted⟩) := by
  unfold withdrawMsg at e
  split at e
  · cases e
  · rename_i pool hp
    split at e
    · cases e
    split at e
    · cases e
    rename_i hd
    split at e
    · cases e
    · rename_i b hb
      cases e
      exact ⟨pool, b, hp, hb, by simpa using hd, rfl⟩

theorem depositMsg_other {m : MsgDeposit} (hs : Tidy q Q s) (hm : Q m.poolId = false) (e : depositMsg m s = some s') : Slice q Q s s' := by
  obtain ⟨pool, b, hp, hb, rfl⟩ := depositMsg_form e
  obtain ⟨i1, i2⟩ := pool_of_get hs hp
  have hQ : Q pool.id = false := by rw [i1]; exact hm
  have hpq : pool.pairId ≠ q := fun c => by rw [i2.2 c] at hQ; cases hQ
  have h1 : Slice q Q s { s with bank := b } := Slice.bank_other (bankEq_send_other hb (fun _ _ => by simp) (fun _ _ => by simp))
  exact (h1.trans (Slice.setPool_other (hs.bank b) (p := { pool with lastDepositId := pool.lastDepositId + 1 }) i2 hpq)).trans
    (Slice.setDeposit_other ((hs.bank b).setPool (p := { pool with lastDepositId := pool.lastDepositId + 1 }) i2) hm)

theorem withdrawMsg_other {m : MsgWithdraw} (hs : Tidy q Q s) (hm : Q m.poolId = false) (e : withdrawMsg m s = some s') : Slice q Q s s' := by
  obtain ⟨pool, b, hp, hb, -, rfl⟩ := withdrawMsg_form e
  obtain ⟨i1, i2⟩ := pool_of_get hs hp
  have hQ : Q pool.id = false := by rw [i1]; exact hm
  have hpq : pool.pairId ≠ q := fun c => by rw [i2.2 c] at hQ; cases hQ
  have h1 : Slice q Q s { s with bank := b } := Slice.bank_other (bankEq_send_other hb (fun _ _ => by simp) (fun _ _ => by simp))
  exact (h1.trans (Slice.setPool_other (hs.bank b) (p := { pool with lastWithdrawId := pool.lastWithdrawId + 1 }) i2 hpq)).trans
    (Slice.setWithdraw_other ((hs.bank b).setPool (p := { pool with lastWithdrawId := pool.lastWithdrawId + 1 }) i2) hm)

theorem depositMsg_slice {m : MsgDeposit} (hs : Tidy q Q s) (ht : Tidy q Q t) (h : Slice q Q s t) (hm : Q m.poolId = true)
    (e1 : depositMsg m s = some s') (e2 : depositMsg m t = some t') : Slice q Q s' t' := by
  obtain ⟨pool, b, hp, hb, rfl⟩ := depositMsg_form e1
  obtain ⟨pool', c, hp', hc, rfl⟩ := depositMsg_form e2
  rw [← h.getPool hs ht hm, hp] at hp'
  cases hp'
  obtain ⟨i1, i2⟩ := pool_of_get hs hp
  have h1 := (h.bank (bankEq_send h.bankEq hb hc)).setPool (hs.bank b) (ht.bank c) (p := { pool with lastDepositId := pool.lastDepositId + 1 }) i2
  exact h1.setDeposit_eq ((hs.bank b).setPool (p := { pool with lastDepositId := pool.lastDepositId + 1 }) i2)
    ((ht.bank c).setPool (p := { pool with lastDepositId := pool.lastDepositId + 1 }) i2) (by rw [h.height])

theorem withdrawMsg_slice {m : MsgWithdraw} (hs : Tidy q Q s) (ht : Tidy q Q t) (h : Slice q Q s t) (hm : Q m.poolId = true)
    (e1 : withdrawMsg m s = some s') (e2 : withdrawMsg m t = some t') : Slice q Q s' t' := by
  obtain ⟨pool, b, hp, hb, -, rfl⟩ := withdrawMsg_form e1
  obtain ⟨pool', c, hp', hc, -, rfl⟩ := withdrawMsg_form e2
  rw [← h.getPool hs ht hm, hp] at hp'
  cases hp'
  obtain ⟨i1, i2⟩ := pool_of_get hs hp
  have h1 := (h.bank (bankEq_send h.bankEq hb hc)).setPool (hs.bank b) (ht.bank c) (p := { pool with lastWithdrawId := pool.lastWithdrawId + 1 }) i2
  exact h1.setWithdraw_eq ((hs.bank b).setPool (p := { pool with lastWithdrawId := pool.lastWithdrawId + 1 }) i2)
    ((ht.bank c).setPool (p := { pool with lastWithdrawId := pool.lastWithdrawId + 1 }) i2) (by rw [h.height])

/-- What placing an order does. -/
theorem placeOrder_form {typ : OType} {orderer pairId : Nat} {dir : Dir} {offer : Coin} {demand : Denom} {price amount lifespan : Int}
    (e : placeOrder typ orderer pairId dir offer demand price amount lifespan s = some s') :
    ∃ pair rprice b, s.getPair pairId = some pair ∧ orderPrice s.params pair typ dir price = some rprice ∧
      s.bank.send (.user orderer) (.pairEscrow pair.id) [⟨offer.denom, offerCoinAmount dir rprice amount⟩] = some b ∧
      s' = (({ s with bank := b }.setPair { pair with lastOrderId := pair.lastOrderId + 1 }).setOrder
        { typ, id := pair.lastOrderId + 1, pairId := pair.id, msgHeight := s.height, orderer
          dir := if offer.denom = pair.base then .sell else .buy
          offerDenom := offer.denom
          demandDenom := if offer.denom = pair.base then pair.quote else pair.base
          offer := offerCoinAmount dir rprice amount, remaining := offerCoinAmount dir rprice amount, received := 0, price := rprice
          amount, openAmt := amount
          batchId := pair.batchId, expireAt := s.time + lifespan, status := .notExecuted }) := by
  unfold placeOrder at e
  split at e
  · cases e
  split at e
  · cases e
  split at e
  · cases e
  · rename_i pair hp
    split at e
    · cases e
    split at e
    · cases e
    split at e
    · cases e
    · rename_i rprice hr
      simp only at e
      split at e
      · cases e
      split at e
      · cases e
      split at e
      · cases e
      · rename_i b hb
        cases e
        exact ⟨pair, rprice, b, hp, hr, hb, rfl⟩

theorem placeOrder_other {typ : OType} {orderer pairId : Nat} {dir : Dir} {offer : Coin} {demand : Denom} {price amount lifespan : Int}
    (hs : Tidy q Q s) (hq : pairId ≠ q) (e : placeOrder typ orderer pairId dir offer demand price amount lifespan s = some s') :
    Slice q Q s s' := by
  obtain ⟨pair, rprice, b, hp, -, hb, rfl⟩ := placeOrder_form e
  have hid : pair.id ≠ q := by rw [getPair_id hp]; exact hq
  have h1 : Slice q Q s { s with bank := b } := Slice.bank_other (bankEq_send_other hb (fun _ _ => by simp) (fun _ _ => by simp))
  exact (h1.trans (Slice.setPair_other (hs.bank b) (p := { pair with lastOrderId := pair.lastOrderId + 1 }) hid)).trans
    (Slice.setOrder_other ((hs.bank b).setPair _) hid)

theorem placeOrder_slice {typ : OType} {orderer pairId : Nat} {dir : Dir} {offer : Coin} {demand : Denom} {price amount lifespan : Int}
    (hs : Tidy q Q s) (ht : Tidy q Q t) (h : Slice q Q s t) (hq : pairId = q)
    (e1 : placeOrder typ orderer pairId dir offer demand price amount lifespan s = some s')
    (e2 : placeOrder typ orderer pairId dir offer demand price amount lifespan t = some t') : Slice q Q s' t' := by
  obtain ⟨pair, rprice, b, hp, hr, hb, rfl⟩ := placeOrder_form e1
  obtain ⟨pair', rprice', c, hp', hr', hc, rfl⟩ := placeOrder_form e2
  rw [hq] at hp hp'
  rw [← h.getPair, hp] at hp'
  cases hp'
  rw [← h.params, hr] at hr'
  cases hr'
  have h1 := (h.bank (bankEq_send h.bankEq hb hc)).setPair (hs.bank b) (ht.bank c) { pair with lastOrderId := pair.lastOrderId + 1 }
  exact h1.setOrder_eq ((hs.bank b).setPair _) ((ht.bank c).setPair _) (by rw [h.height, h.time])

theorem mmOrder_form {m : MsgLimitOrder} (e : mmOrder m s = some s') :
    ∃ s1 n, placeOrder .mm m.orderer m.pairId m.dir m.offer m.demand m.price m.amt m.lifespan s = some s1 ∧
      s' = s1.setNumMM m.orderer m.pairId n := by
  unfold mmOrder at e
  simp only at e
  split at e
  · cases e
  · obtain ⟨s1, h1, h2⟩ := Option.map_eq_some_iff.1 e
    exact ⟨s1, _, h1, h2.symm⟩

theorem setNumMM_slice (s : State) (a p : Nat) (n : Option Nat) : Slice q Q s (s.setNumMM a p n) := { Slice.refl s with }

theorem cancelOrder_form {m : MsgCancelOrder} (e : cancelOrder m s = some s') :
    ∃ o, s.getOrder m.pairId m.orderId = some o ∧ finishOrder o .canceled s = some s' := by
  unfold cancelOrder at e
  split at e
  · cases e
  · rename_i o ho
    split at e
    · cases e
    split at e
    · cases e
    split at e
    · cases e
    split at e
    · cases e
    exact ⟨o, ho, e⟩

theorem cancelAllStep_tidy {ids : List Nat} {o : OrderRec} (hs : Tidy q Q s) (e : cancelAllStep ids o s = some s') : Tidy q Q s' := by
  unfold cancelAllStep at e
  split at e
  · split at e
    · cases e
    · split at e
      · exact finishOrder_tidy hs e
      · cases e; exact hs
  · cases e; exact hs

theorem cancelAllStep_other {ids : List Nat} {o : OrderRec} (ho : o.pairId ≠ q) (hs : Tidy q Q s) (e : cancelAllStep ids o s = some s') :
    Slice q Q s s' := by
  unfold cancelAllStep at e
  split at e
  · split at e
    · cases e
    · split at e
      · exact finishOrder_other ho hs e
      · cases e; exact Slice.refl _
  · cases e; exact Slice.refl _

theorem cancelAllStep_slice {ids : List Nat} {o : OrderRec} (ho : o.pairId = q) (hs : Tidy q Q s) (ht : Tidy q Q t) (h : Slice q Q s t)
    (e1 : cancelAllStep ids o s = some s') (e2 : cancelAllStep ids o t = some t') : Slice q Q s' t' := by
  unfold cancelAllStep at e1 e2
  by_cases c : ids.length = 0 ∨ o.pairId ∈ ids
  · rw [if_pos c] at e1 e2
    rw [ho, ← h.getPair] at e2
    rw [ho] at e1
    cases hp : s.getPair q with
    | none => rw [hp] at e1; cases e1
    | some pair =>
      rw [hp] at e1 e2
      simp only at e1 e2
      by_cases c2 : o.status ≠ .canceled ∧ o.batchId < pair.batchId
      · rw [if_pos c2] at e1 e2
        exact finishOrder_slice hs ht h e1 e2
      · rw [if_neg c2] at e1 e2
        cases e1; cases e2; exact h
  · rw [if_neg c] at e1 e2
    cases e1; cases e2; exact h

theorem cancelAll_form {m : MsgCancelAllOrders} (e : cancelAllOrders m s = some s') :
    forEach (cancelAllStep m.pairIds) (s.ordersBy m.orderer) s = some s' := by
  unfold cancelAllOrders at e
  split at e
  · cases e
  · exact e

theorem filter_swap {β : Type} {P R : β → Bool} {l m : List β} (e : l.filter P = m.filter P) : (l.filter R).filter P = (m.filter R).filter P := by
  have hc : ∀ l : List β, (l.filter R).filter P = (l.filter P).filter R := fun l => by
    rw [List.filter_filter, List.filter_filter]
    exact List.filter_congr fun x _ => Bool.and_comm _ _
  rw [hc, hc, e]

theorem cancelAll_slice {m : MsgCancelAllOrders} (hs : Tidy q Q s) (ht : Tidy q Q t) (h : Slice q Q s t)
    (e1 : cancelAllOrders m s = some s') (e2 : cancelAllOrders m t = some t') : Slice q Q s' t' :=
  (slice_forEach (q := q) (Q := Q) (P := fun (o : OrderRec) => o.pairId == q) (f := cancelAllStep m.pairIds) (ok := fun _ => True)
    (fun x s s' _ hs e => cancelAllStep_tidy hs e) (fun x s s' _ hx hs e => cancelAllStep_other (by simpa using hx) hs e)
    (fun x s s' t t' _ hx hs ht h e e' => cancelAllStep_slice (by simpa using hx) hs ht h e e') _ _ s s' t t'
    (fun _ _ => trivial) (fun _ _ => trivial) (filter_swap h.orders) hs ht h (cancelAll_form e1) (cancelAll_form e2)).1

theorem cancelAll_other {m : MsgCancelAllOrders} (hs : Tidy q Q s) (hm : m.pairIds ≠ [] ∧ q ∉ m.pairIds)
    (e : cancelAllOrders m s = some s') : Slice q Q s s' := by
  have e := cancelAll_form e
  refine (forEach_keep (ok := fun _ => True) (R := fun (u : State) => Tidy q Q u ∧ Slice q Q s u) ?_ _ _ _ (fun _ _ => trivial)
    ⟨hs, Slice.refl _⟩ e).2
  intro x a a' _ ha f
  refine ⟨cancelAllStep_tidy ha.1 f, ha.2.trans ?_⟩
  by_cases c : x.pairId = q
  · unfold cancelAllStep at f
    rw [if_neg] at f
    · cases f; exact Slice.refl _
    · rintro (c2 | c2)
      · exact hm.1 (List.length_eq_zero_iff.1 c2)
      · rw [c] at c2; exact hm.2 c2
  · exact cancelAllStep_other c ha.1 f

/-! ## From slices to the specification -/

/-- The pools of the pair `q`, decidably. -/
def poolOf (s : State) (q : Nat) (id : Nat) : Bool := s.pools.any (fun p => p.id == id && p.pairId == q)

theorem poolOf_iff {id : Nat} : poolOf s q id = true ↔ PoolOf s q id := by
  unfold poolOf PoolOf
  simp only [List.any_eq_true, Bool.and_eq_true, beq_iff_eq]

theorem tidy_of_wf (hs : WF s) (ht : WF t) (h : ∀ p, p.pairId = q → (p ∈ s.pools ↔ p ∈ t.pools))
    (hd : ∀ id, t.params.dustCollector ≠ .poolReserve id) : Tidy q (poolOf s q) t where
  pairsS := ht.pairsS
  poolsS := ht.poolsS
  ordersS := ht.ordersS
  depsS := ht.depsS
  wdsS := ht.wdsS
  mine := fun p hp => by
    rw [poolOf_iff]
    constructor
    · rintro ⟨p', h1, h2, h3⟩
      have := ht.key_pool hp ((h p' h3).1 h1) h2.symm
      rw [this]; exact h3
    · intro hpq
      exact ⟨p, (h p hpq).2 hp, rfl, hpq⟩
  coin := fun r hr => (ht.wds r hr).2.2.2
  dust := fun id _ => hd id

theorem filter_eq_of {α : Type} {key : α → Key} {l m : List α} {P : α → Bool} (hl : Sorted key l) (hm : Sorted key m)
    (h : ∀ x, P x = true → (x ∈ l ↔ x ∈ m)) : l.filter P = m.filter P := by
  have hl' : Sorted key (l.filter P) := hl.filter P
  have hm' : Sorted key (m.filter P) := hm.filter P
  refine sorted_ext hl' hm' fun x => ?_
  simp only [List.mem_filter]
  constructor
  · rintro ⟨h1, h2⟩; exact ⟨(h x h2).1 h1, h2⟩
  · rintro ⟨h1, h2⟩; exact ⟨(h x h2).2 h1, h2⟩

theorem slice_of_same (hs : WF s) (ht : WF t) (h : SameMarket q s t) : Slice q (poolOf s q) s t where
  params := h.params
  height := h.block.1
  time := h.block.2
  pairs := filter_eq_of hs.pairsS ht.pairsS fun x hx => h.pair x (by simpa using hx)
  pools := filter_eq_of hs.poolsS ht.poolsS fun x hx => h.pools x (by simpa using hx)
  orders := filter_eq_of hs.ordersS ht.ordersS fun x hx => h.orders x (by simpa using hx)
  deposits := filter_eq_of hs.depsS ht.depsS fun x hx => h.deposits x (poolOf_iff.1 hx)
  withdraws := filter_eq_of hs.wdsS ht.wdsS fun x hx => h.withdraws x (poolOf_iff.1 hx)
  bal := fun id hi => h.reserves id (poolOf_iff.1 hi)
  sup := fun id hi => h.poolCoins id (poolOf_iff.1 hi)

theorem mem_of_filter {α : Type} {l m : List α} {P : α → Bool} (h : l.filter P = m.filter P) {x : α} (hx : P x = true) : x ∈ l ↔ x ∈ m := by
  have := congrArg (x ∈ ·) h
  simp only [List.mem_filter, hx, and_true] at this
  exact Iff.of_eq this

/-- `hQ`: the pools of the pair are among the ones of the slice. -/
theorem same_of_slice (h : Slice q Q s t) (hQ : ∀ id, PoolOf s q id → Q id = true) : SameMarket q s t where
  params := h.params
  block := ⟨h.height, h.time⟩
  pair := fun p hp => mem_of_filter h.pairs (by simpa using hp)
  pools := fun p hp => mem_of_filter h.pools (by simpa using hp)
  orders := fun o ho => mem_of_filter h.orders (by simpa using ho)
  deposits := fun r hr => mem_of_filter h.deposits (hQ _ hr)
  withdraws := fun r hr => mem_of_filter h.withdraws (hQ _ hr)
  reserves := fun id hi => h.bal id (hQ id hi)
  poolCoins := fun id hi => h.sup id (hQ id hi)

theorem poolOf_same (h : SameMarket q s t) {id : Nat} : PoolOf s q id ↔ PoolOf t q id :=
  ⟨fun ⟨p, h1, h2, h3⟩ => ⟨p, (h.pools p h3).1 h1, h2, h3⟩, fun ⟨p, h1, h2, h3⟩ => ⟨p, (h.pools p h3).2 h1, h2, h3⟩⟩

theorem SameMarket_symm (h : SameMarket q s t) : SameMarket q t s where
  params := h.params.symm
  block := ⟨h.block.1.symm, h.block.2.symm⟩
  pair := fun p hp => (h.pair p hp).symm
  pools := fun p hp => (h.pools p hp).symm
  orders := fun p hp => (h.orders p hp).symm
  deposits := fun r hr => (h.deposits r ((poolOf_same h).2 hr)).symm
  withdraws := fun r hr => (h.withdraws r ((poolOf_same h).2 hr)).symm
  reserves := fun id hr d => (h.reserves id ((poolOf_same h).2 hr) d).symm
  poolCoins := fun id hr => (h.poolCoins id ((poolOf_same h).2 hr)).symm

theorem SameMarket_trans {u : State} (h : SameMarket q s t) (h' : SameMarket q t u) : SameMarket q s u where
  params := h.params.trans h'.params
  block := ⟨h.block.1.trans h'.block.1, h.block.2.trans h'.block.2⟩
  pair := fun p hp => (h.pair p hp).trans (h'.pair p hp)
  pools := fun p hp => (h.pools p hp).trans (h'.pools p hp)
  orders := fun p hp => (h.orders p hp).trans (h'.orders p hp)
  deposits := fun r hr => (h.deposits r hr).trans (h'.deposits r ((poolOf_same h).1 hr))
  withdraws := fun r hr => (h.withdraws r hr).trans (h'.withdraws r ((poolOf_same h).1 hr))
  reserves := fun id hr d => (h.reserves id hr d).trans (h'.reserves id ((poolOf_same h).1 hr) d)
  poolCoins := fun id hr => (h.poolCoins id hr).trans (h'.poolCoins id ((poolOf_same h).1 hr))

/-! ## Steps -/

/-- What is known of the states of a history. -/
structure Known (s : State) : Prop where
  wf : WF s
  apart : CollectorsApart s.params

theorem step_accepted {env : Env} {op : Op} (h : step env op s = some s') :
    (accepted env op s = some s') ∨ (accepted env op s = none ∧ s' = s) := by
  have key : ∀ (v : Bool) (f : State → Option State), some (tx v f s) = some s' →
      (if v = true then f s else none) = some s' ∨ ((if v = true then f s else none) = none ∧ s' = s) := by
    intro v f e
    have e := Option.some.inj e
    unfold tx at e
    cases v
    · exact Or.inr ⟨rfl, e.symm⟩
    · rw [if_pos rfl] at e
      rw [if_pos rfl]
      cases hf : f s with
      | none => rw [hf] at e; exact Or.inr ⟨rfl, e.symm⟩
      | some u => rw [hf] at e; exact Or.inl (congrArg some e)
  cases op with
  | createPair m => exact key _ _ h
  | createPool m => exact key _ _ h
  | createRangedPool m => exact key _ _ h
  | deposit m => exact key _ _ h
  | withdraw m => exact key _ _ h
  | limitOrder m => exact key _ _ h
  | marketOrder m => exact key _ _ h
  | mmOrder m => exact key _ _ h
  | cancelOrder m => exact key _ _ h
  | cancelAllOrders m => exact key _ _ h
  | transfer src dst cs =>
    have := key true (fun s => (s.bank.send (.user src) dst cs).map (fun b => { s with bank := b })) h
    rwa [if_pos rfl] at this
  | setParams p => exact key _ _ h
  | beginBlock a b => exact Or.inl h
  | endBlock => exact Or.inl h

theorem known_step (hk : Known s) {env : Env} {op : Op} (hp : ∀ p, op = .setParams p → CollectorsApart p)
    (h : step env op s = some s') : Known s' :=
  ⟨step_wf hk.wf h, params_run (P := CollectorsApart) (ops := [op]) hk.wf hk.apart (fun p hm => hp p (List.mem_singleton.1 hm).symm)
    (by rw [run, h]; rfl)⟩

/-- The slice lemma from the specification: equal markets have slices, and slices come from equal markets. -/
theorem of_if {α : Type} {v : Bool} {f : Option α} {x : α} (h : (if v = true then f else none) = some x) : f = some x := by
  cases v
  · cases h
  · exact h

/-- An operation about other markets leaves the market alone. -/
theorem step_elsewhere (hk : Known s) (hq : ∃ p ∈ s.pairs, p.id = q) {env : Env} {op : Op} (he : Elsewhere q s op)
    (h : step env op s = some s') : SameMarket q s s' := by
  have hT : Tidy q (poolOf s q) s := tidy_of_wf hk.wf hk.wf (fun _ _ => Iff.rfl) fun id => (hk.apart id).1
  have hw' := step_wf hk.wf h
  have hfee : ∀ id, poolOf s q id = true → s.params.feeCollector ≠ .poolReserve id := fun id _ => (hk.apart id).2
  have hnew : poolOf s q (s.lastPoolId + 1) = false := by
    rw [← Bool.not_eq_true, poolOf_iff]
    rintro ⟨p, h1, h2, -⟩
    have := (hk.wf.poolIds p h1).2.1
    omega
  have hno : ∀ {id}, ¬ PoolOf s q id → poolOf s q id = false := fun h => by rwa [← Bool.not_eq_true, poolOf_iff]
  have key : Slice q (poolOf s q) s s' := by
    rcases step_accepted h with ha | ⟨-, rfl⟩
    · cases op with
      | createPair m =>
        obtain ⟨p, h1, h2⟩ := hq
        have := (hk.wf.pairIds p h1).2
        exact createPair_other hT (by omega) hfee (of_if ha)
      | createPool m => exact createPool_other hT hnew he hfee (of_if ha)
      | createRangedPool m => exact createRangedPool_other hT hnew he hfee (of_if ha)
      | deposit m => exact depositMsg_other hT (hno he) (of_if ha)
      | withdraw m => exact withdrawMsg_other hT (hno he) (of_if ha)
      | limitOrder m => exact placeOrder_other hT he (of_if ha)
      | marketOrder m => exact placeOrder_other hT he (of_if ha)
      | mmOrder m =>
        obtain ⟨s1, n, h1, rfl⟩ := mmOrder_form (of_if ha)
        exact (placeOrder_other hT he h1).trans (setNumMM_slice _ _ _ _)
      | cancelOrder m =>
        obtain ⟨o, h1, h2⟩ := cancelOrder_form (of_if ha)
        exact finishOrder_other (by rw [(Prod.mk.inj (lookup_some_mem h1).2).1]; exact he) hT h2
      | cancelAllOrders m => exact cancelAll_other hT he (of_if ha)
      | transfer src dst cs =>
        obtain ⟨b, hb, rfl⟩ := Option.map_eq_some_iff.1 ha
        exact Slice.bank_other (bankEq_send_other hb (fun _ _ => by simp) (fun id hi => he id (poolOf_iff.1 hi)))
      | setParams p => exact he.elim
      | beginBlock a b => exact he.elim
      | endBlock => exact he.elim
    · exact Slice.refl _
  exact same_of_slice key fun id => poolOf_iff.2

theorem poolOf_later {env : Env} {op : Op} (hk : Known s) (hv : Visible op) (h : step env op s = some s')
    (hT : ∀ {Q : Nat → Bool}, Tidy q Q s → Tidy q Q s') : ∀ id, PoolOf s' q id → poolOf s q id = true := by
  have hT : Tidy q (poolOf s q) s' := hT (tidy_of_wf hk.wf hk.wf (fun _ _ => Iff.rfl) fun id => (hk.apart id).1)
  rintro id ⟨p, h1, h2, h3⟩
  rw [← h2]
  exact (hT.mine p h1).2 h3

theorem placeOrder_tidy {typ : OType} {orderer pairId : Nat} {dir : Dir} {offer : Coin} {demand : Denom} {price amount lifespan : Int}
    (hs : Tidy q Q s) (e : placeOrder typ orderer pairId dir offer demand price amount lifespan s = some s') : Tidy q Q s' := by
  obtain ⟨pair, rprice, b, -, -, -, rfl⟩ := placeOrder_form e
  exact ((hs.bank b).setPair _).setOrder _

theorem executeRequests_tidy {env : Env} (hs : Tidy q Q s) (e : executeRequests env s = some s') : Tidy q Q s' :=
  (executeRequests_slice hs hs (Slice.refl s) e e).2.1

/-- Every visible operation keeps a tidy state tidy. -/
theorem accepted_tidy {env : Env} {op : Op} (hv : Visible op) (hs : Tidy q Q s) (ha : accepted env op s = some s') : Tidy q Q s' := by
  cases op with
  | createPair m => exact hv.elim
  | createPool m => exact hv.elim
  | createRangedPool m => exact hv.elim
  | deposit m =>
    obtain ⟨pool, b, h1, -, rfl⟩ := depositMsg_form (of_if ha)
    exact ((hs.bank b).setPool (p := { pool with lastDepositId := pool.lastDepositId + 1 }) (pool_of_get hs h1).2).setDeposit _
  | withdraw m =>
    obtain ⟨pool, b, h1, -, h2, rfl⟩ := withdrawMsg_form (of_if ha)
    refine ((hs.bank b).setPool (p := { pool with lastWithdrawId := pool.lastWithdrawId + 1 }) (pool_of_get hs h1).2).setWithdraw ?_
    rw [(pool_of_get hs h1).1] at h2
    exact h2
  | limitOrder m => exact placeOrder_tidy hs (of_if ha)
  | marketOrder m => exact placeOrder_tidy hs (of_if ha)
  | mmOrder m =>
    obtain ⟨s1, n, h1, rfl⟩ := mmOrder_form (of_if ha)
    exact (placeOrder_tidy hs h1).numMM _
  | cancelOrder m =>
    obtain ⟨o, h1, h2⟩ := cancelOrder_form (of_if ha)
    exact finishOrder_tidy hs h2
  | cancelAllOrders m =>
    exact forEach_keep (ok := fun _ => True) (R := fun (u : State) => Tidy q Q u) (fun x a a' _ ha f => cancelAllStep_tidy ha f) _ _ _
      (fun _ _ => trivial) hs (cancelAll_form (of_if ha))
  | transfer src dst cs =>
    obtain ⟨b, hb, rfl⟩ := Option.map_eq_some_iff.1 ha
    exact hs.bank b
  | setParams p =>
    have := of_if ha
    cases this
    exact { hs with dust := fun id _ => (hv id).1 }
  | beginBlock a b =>
    cases ha
    exact { hs with
      ordersS := hs.ordersS.filter _
      depsS := hs.depsS.filter _
      wdsS := hs.wdsS.filter _
      coin := fun r hr => hs.coin r (List.mem_filter.1 hr).1 }
  | endBlock =>
    change endBlock env s = some s' at ha
    unfold endBlock at ha
    split at ha
    · cases ha
    · split at ha
      · exact executeRequests_tidy hs ha
      · cases ha; exact hs

/-- The same operation about the market, accepted in both states. -/
theorem accepted_slice {env : Env} {op : Op} (hv : Visible op) (hs : Tidy q Q s) (ht : Tidy q Q t) (h : Slice q Q s t)
    (hd : ∀ id, PoolOf s q id → Q id = true) (ho : ¬ Elsewhere q s op) (e1 : accepted env op s = some s')
    (e2 : accepted env op t = some t') : Slice q Q s' t' := by
  cases op with
  | createPair m => exact hv.elim
  | createPool m => exact hv.elim
  | createRangedPool m => exact hv.elim
  | deposit m => exact depositMsg_slice hs ht h (hd _ (Classical.not_not.1 ho)) (of_if e1) (of_if e2)
  | withdraw m => exact withdrawMsg_slice hs ht h (hd _ (Classical.not_not.1 ho)) (of_if e1) (of_if e2)
  | limitOrder m => exact placeOrder_slice hs ht h (Classical.not_not.1 ho) (of_if e1) (of_if e2)
  | marketOrder m => exact placeOrder_slice hs ht h (Classical.not_not.1 ho) (of_if e1) (of_if e2)
  | mmOrder m =>
    obtain ⟨s1, n, h1, rfl⟩ := mmOrder_form (of_if e1)
    obtain ⟨t1, k, h2, rfl⟩ := mmOrder_form (of_if e2)
    exact ((setNumMM_slice _ _ _ _).symm.trans (placeOrder_slice hs ht h (Classical.not_not.1 ho) h1 h2)).trans (setNumMM_slice _ _ _ _)
  | cancelOrder m =>
    obtain ⟨o, h1, h2⟩ := cancelOrder_form (of_if e1)
    obtain ⟨o', h1', h2'⟩ := cancelOrder_form (of_if e2)
    rw [show m.pairId = q from Classical.not_not.1 ho] at h1 h1'
    rw [← h.getOrder, h1] at h1'
    cases h1'
    exact finishOrder_slice hs ht h h2 h2'
  | cancelAllOrders m => exact cancelAll_slice hs ht h (of_if e1) (of_if e2)
  | transfer src dst cs =>
    obtain ⟨b, hb, rfl⟩ := Option.map_eq_some_iff.1 e1
    obtain ⟨c, hc, rfl⟩ := Option.map_eq_some_iff.1 e2
    exact h.bank (bankEq_send h.bankEq hb hc)
  | setParams p =>
    have a := of_if e1
    have b := of_if e2
    cases a; cases b
    exact { h with params := rfl }
  | beginBlock a b => cases e1; cases e2; exact beginBlock_slice h
  | endBlock => exact endBlock_slice hs ht h e1 e2

theorem step_own (hs : Known s) (ht : Known t) {env : Env} {op : Op} (hv : Visible op) (ho : ¬ Elsewhere q s op)
    (h : SameMarket q s t) (a1 : (accepted env op s).isSome = true) (a2 : (accepted env op t).isSome = true)
    (e1 : step env op s = some s') (e2 : step env op t = some t') : SameMarket q s' t' := by
  have g1 : accepted env op s = some s' := by
    rcases step_accepted e1 with g | ⟨g, -⟩
    · exact g
    · rw [g] at a1; cases a1
  have g2 : accepted env op t = some t' := by
    rcases step_accepted e2 with g | ⟨g, -⟩
    · exact g
    · rw [g] at a2; cases a2
  have hTs : Tidy q (poolOf s q) s := tidy_of_wf hs.wf hs.wf (fun _ _ => Iff.rfl) fun id => (hs.apart id).1
  have hTt : Tidy q (poolOf s q) t := tidy_of_wf hs.wf ht.wf h.pools fun id => (ht.apart id).1
  refine same_of_slice (accepted_slice hv hTs hTt (slice_of_same hs.wf ht.wf h) (fun id => poolOf_iff.2) ho g1 g2) ?_
  rintro id ⟨p, h1, h2, h3⟩
  rw [← h2]
  exact ((accepted_tidy hv hTs g1).mine p h1).2 h3

/-! ## Histories -/

theorem pair_later (hw : WF s) {env : Env} {op : Op} (hq : ∃ p ∈ s.pairs, p.id = q) (h : step env op s = some s') :
    ∃ p ∈ s'.pairs, p.id = q := by
  obtain ⟨p, h1, h2⟩ := hq
  obtain ⟨p', h3, h4⟩ := (run_evolves (ops := [op]) hw (by rw [run, h]; rfl)).pairs p h1
  exact ⟨p', h3, by rw [← h2]; exact h4.1⟩

theorem elsewhere_params {op : Op} (he : Elsewhere q s op) : ∀ p, op = .setParams p → CollectorsApart p := by
  rintro p rfl
  exact he.elim

theorem visible_params {op : Op} (hv : Visible op) : ∀ p, op = .setParams p → CollectorsApart p := by
  rintro p rfl
  exact hv

/-- One history against none. -/
theorem sees_nil {env : Env} {trace : List Op} (h : Sees env q trace s s') : Known s → (∃ p ∈ s.pairs, p.id = q) → trace = [] →
    SameMarket q s s' := by
  induction h with
  | done s => exact fun hk _ _ => same_of_slice (Slice.refl (Q := poolOf s q) s) fun id => poolOf_iff.2
  | elsewhere op he h _ ih =>
    intro hk hq e
    exact SameMarket_trans (step_elsewhere hk hq he h) (ih (known_step hk (elsewhere_params he) h) (pair_later hk.wf hq h) e)
  | refused op hr h _ ih =>
    intro hk hq e
    rcases step_accepted h with g | ⟨-, rfl⟩
    · rw [hr] at g; cases g
    · exact ih hk hq e
  | own op hv ho ha h _ ih => intro _ _ e; cases e

/-- The first visible operation of a history. -/
theorem sees_cons {env : Env} {trace : List Op} (h : Sees env q trace s s') : Known s → (∃ p ∈ s.pairs, p.id = q) →
    ∀ op tr, trace = op :: tr → ∃ u u', Known u ∧ SameMarket q s u ∧ (∃ p ∈ u.pairs, p.id = q) ∧ Visible op ∧ ¬ Elsewhere q u op ∧
      (accepted env op u).isSome = true ∧ step env op u = some u' ∧ Sees env q tr u' s' := by
  induction h with
  | done s => intro _ _ op tr e; cases e
  | @elsewhere trace s s1 s' op' he h _ ih =>
    intro hk hq op tr e
    obtain ⟨u, u', h1, h2, h3⟩ := ih (known_step hk (elsewhere_params he) h) (pair_later hk.wf hq h) op tr e
    exact ⟨u, u', h1, SameMarket_trans (step_elsewhere hk hq he h) h2, h3⟩
  | refused op' hr h _ ih =>
    intro hk hq op tr e
    rcases step_accepted h with g | ⟨-, rfl⟩
    · rw [hr] at g; cases g
    · exact ih hk hq op tr e
  | @own trace s s1 s' op' hv ho ha h rest _ =>
    intro hk hq op tr e
    cases e
    exact ⟨s, s1, hk, same_of_slice (Slice.refl (Q := poolOf s q) s) fun id => poolOf_iff.2, hq, hv, ho, ha, h, rest⟩

theorem sees_same {env : Env} : ∀ (trace : List Op) {s t s' t' : State}, Known s → Known t → (∃ p ∈ s.pairs, p.id = q) →
    (∃ p ∈ t.pairs, p.id = q) → SameMarket q s t → Sees env q trace s s' → Sees env q trace t t' → SameMarket q s' t'
  | [], s, t, s', t', hs, ht, hq, hq', h, h1, h2 =>
    SameMarket_trans (SameMarket_symm (sees_nil h1 hs hq rfl)) (SameMarket_trans h (sees_nil h2 ht hq' rfl))
  | op :: trace, s, t, s', t', hs, ht, hq, hq', h, h1, h2 => by
    obtain ⟨u, u', k1, k2, k3, k4, k5, k6, k7, k8⟩ := sees_cons h1 hs hq op trace rfl
    obtain ⟨v, v', l1, l2, l3, l4, l5, l6, l7, l8⟩ := sees_cons h2 ht hq' op trace rfl
    have huv : SameMarket q u v := SameMarket_trans (SameMarket_symm k2) (SameMarket_trans h l2)
    exact sees_same trace (known_step k1 (visible_params k4) k7) (known_step l1 (visible_params l4) l7) (pair_later k1.wf k3 k7)
      (pair_later l1.wf l3 l7) (step_own k1 l1 k4 k5 huv k6 l6 k7 l7) k8 l8

end Verif.Dex

import Verif.Proofs.MarketOps
import Verif.Proofs.Accept
import Verif.Props.Accept
/-! # Whether a message is accepted depends on its market only (C84) -/
namespace Verif.Dex
open Verif Verif.Amm Verif.Spec
set_option linter.unusedSectionVars false
set_option linter.unusedVariables false

variable {q : Nat} {Q : Nat → Bool} {s t u s' t' : State}

theorem send_isSome_congr {b c : Bank} {src dst : Addr} {cs : Coins} (h : ∀ d, b.bal src d = c.bal src d) :
    (b.send src dst cs).isSome = (c.send src dst cs).isSome := by
  unfold Bank.send
  simp only [h]
  split <;> rfl

theorem placeOrder_answer (hs : WF s) (ht : WF t) (h : Slice q Q s t) {typ : OType} {orderer : Nat} {dir : Dir} {offer : Coin}
    {demand : Denom} {price amount lifespan : Int} (hb : s.bank.bal (.user orderer) offer.denom = t.bank.bal (.user orderer) offer.denom)
    (e : ∃ s', placeOrder typ orderer q dir offer demand price amount lifespan s = some s') :
    ∃ t', placeOrder typ orderer q dir offer demand price amount lifespan t = some t' := by
  rw [placeOrder_iff hs, h.getPair, hb, h.params] at e
  rw [placeOrder_iff ht]
  exact e

theorem numMM_same (hs : WF s) (ht : WF t) (h : Slice q Q s t) (a : Nat) : s.getNumMM a q = t.getNumMM a q := by
  have e : liveMM s.orders a q = liveMM t.orders a q := by
    have aux : ∀ l : List OrderRec, liveMM l a q = liveMM (l.filter (fun o => o.pairId == q)) a q := by
      intro l
      unfold liveMM
      rw [List.countP_filter]
      refine List.countP_congr fun o _ => ?_
      simp only [Bool.and_eq_true]
      tauto
    rw [aux, aux t.orders, h.orders]
  unfold State.getNumMM
  rw [hs.mm, ht.mm, e]

theorem mmOrder_answer (hs : WF s) (ht : WF t) (h : Slice q Q s t) {m : MsgLimitOrder} (hm : m.pairId = q)
    (hb : s.bank.bal (.user m.orderer) m.offer.denom = t.bank.bal (.user m.orderer) m.offer.denom)
    (e : ∃ s', mmOrder m s = some s') : ∃ t', mmOrder m t = some t' := by
  obtain ⟨s', e⟩ := e
  unfold mmOrder at e ⊢
  simp only at e ⊢
  rw [hm] at e ⊢
  rw [numMM_same hs ht h, h.params] at e
  split at e
  · cases e
  · rename_i hn
    rw [if_neg hn]
    rw [Option.map_eq_some_iff] at e
    obtain ⟨s1, e, -⟩ := e
    obtain ⟨t1, g⟩ := placeOrder_answer hs ht h hb ⟨s1, e⟩
    rw [g]
    exact ⟨_, rfl⟩

/-- What cancelling reads besides the orders. -/
structure Refunds (q : Nat) (s t : State) : Prop where
  pair : s.getPair q = t.getPair q
  escrow : ∀ d, s.bank.bal (.pairEscrow q) d = t.bank.bal (.pairEscrow q) d

theorem Refunds.symm (h : Refunds q s t) : Refunds q t s := ⟨h.pair.symm, fun d => (h.escrow d).symm⟩

theorem finishOrder_answer {o : OrderRec} {st : OStatus} (ho : o.pairId = q) (h : Refunds q s t) (e : finishOrder o st s = some s') :
    ∃ t', finishOrder o st t = some t' ∧ Refunds q s' t' := by
  subst ho
  unfold finishOrder at e ⊢
  by_cases hd : o.status.shouldBeDeleted = true
  · rw [if_pos hd] at e ⊢
    cases e
    exact ⟨t, rfl, h⟩
  · rw [if_neg hd] at e ⊢
    have fin : ∀ b c : Bank, (∀ d, b.bal (.pairEscrow o.pairId) d = c.bal (.pairEscrow o.pairId) d) →
        (let s1 := { s with bank := b }.setOrder { o with status := st }
          if o.typ = .mm then
            let n := s1.getNumMM o.orderer o.pairId
            some (s1.setNumMM o.orderer o.pairId (if n ≤ 1 then none else some (n - 1)))
          else some s1) = some s' →
        ∃ t', (let s1 := { t with bank := c }.setOrder { o with status := st }
          if o.typ = .mm then
            let n := s1.getNumMM o.orderer o.pairId
            some (s1.setNumMM o.orderer o.pairId (if n ≤ 1 then none else some (n - 1)))
          else some s1) = some t' ∧ Refunds o.pairId s' t' := by
      intro b c hbc e
      simp only at e ⊢
      split at e
      · rename_i hm
        cases e
        rw [if_pos hm]
        exact ⟨_, rfl, ⟨h.pair, hbc⟩⟩
      · rename_i hm
        cases e
        rw [if_neg hm]
        exact ⟨_, rfl, ⟨h.pair, hbc⟩⟩
    by_cases hr : 0 < o.remaining
    · rw [if_pos hr] at e ⊢
      cases hp : s.getPair o.pairId with
      | none => rw [hp] at e; cases e
      | some p =>
        rw [← h.pair, hp]
        rw [hp, Option.bind_some] at e
        rw [Option.bind_some]
        have hpq := getPair_id hp
        cases hb : s.bank.send (.pairEscrow p.id) (.user o.orderer) [⟨o.offerDenom, o.remaining⟩] with
        | none => rw [hb] at e; cases e
        | some b =>
          rw [hb] at e
          have hc := send_isSome_congr (b := s.bank) (c := t.bank) (src := .pairEscrow p.id) (dst := .user o.orderer)
            (cs := [⟨o.offerDenom, o.remaining⟩]) (by rw [hpq]; exact h.escrow)
          rw [hb] at hc
          obtain ⟨c, hc⟩ := Option.isSome_iff_exists.1 hc.symm
          rw [hc]
          refine fin b c ?_ e
          intro d
          rw [(send_some hb).2.2.2, (send_some hc).2.2.2, h.escrow]
    · rw [if_neg hr] at e ⊢
      exact fin _ _ h.escrow e

theorem cancelOrder_answer (h : Slice q Q s t) {m : MsgCancelOrder} (hm : m.pairId = q)
    (hb : ∀ d, s.bank.bal (.pairEscrow q) d = t.bank.bal (.pairEscrow q) d)
    (e : ∃ s', cancelOrder m s = some s') : ∃ t', cancelOrder m t = some t' := by
  obtain ⟨s', e⟩ := e
  unfold cancelOrder at e ⊢
  rw [hm, h.getOrder, h.getPair] at e
  rw [hm]
  cases ho : t.getOrder q m.orderId with
  | none => rw [ho] at e; cases e
  | some o =>
    rw [ho] at e
    simp only at e ⊢
    by_cases h1 : m.orderer ≠ o.orderer
    · rw [if_pos h1] at e; cases e
    · rw [if_neg h1] at e ⊢
      by_cases h2 : o.status = .canceled
      · rw [if_pos h2] at e; cases e
      · rw [if_neg h2] at e ⊢
        cases hp : t.getPair q with
        | none => rw [hp] at e; cases e
        | some p =>
          rw [hp] at e
          simp only at e ⊢
          by_cases h3 : o.batchId = p.batchId
          · rw [if_pos h3] at e; cases e
          · rw [if_neg h3] at e ⊢
            have hoq : o.pairId = q := (Prod.mk.inj (lookup_some_mem ho).2).1
            obtain ⟨t', g, -⟩ := finishOrder_answer hoq ⟨h.getPair, hb⟩ e
            exact ⟨t', g⟩

theorem cancelAllStep_answer {o : OrderRec} (ho : o.pairId = q) (h : Refunds q s t) (e : cancelAllStep [q] o s = some s') :
    ∃ t', cancelAllStep [q] o t = some t' ∧ Refunds q s' t' := by
  unfold cancelAllStep at e ⊢
  rw [ho] at e ⊢
  rw [if_pos (.inr (List.mem_singleton.2 rfl))] at e ⊢
  rw [← h.pair]
  cases hp : s.getPair q with
  | none => rw [hp] at e; cases e
  | some p =>
    rw [hp] at e
    simp only at e ⊢
    split at e
    · rename_i hc
      rw [if_pos hc]
      exact finishOrder_answer ho h e
    · rename_i hc
      cases e
      rw [if_neg hc]
      exact ⟨t, rfl, h⟩

theorem cancelAll_skip (q : Nat) : ∀ (l : List OrderRec) (s : State),
    forEach (cancelAllStep [q]) l s = forEach (cancelAllStep [q]) (l.filter (fun o => o.pairId == q)) s
  | [], _ => rfl
  | o :: l, s => by
    by_cases ho : o.pairId = q
    · rw [List.filter_cons_of_pos (by simpa using ho)]
      unfold forEach
      exact congrArg _ (funext fun s1 => cancelAll_skip q l s1)
    · rw [List.filter_cons_of_neg (by simpa using ho)]
      have : cancelAllStep [q] o s = some s := by
        unfold cancelAllStep
        rw [if_neg (by rintro (h | h); · cases h
                       · exact ho (List.mem_singleton.1 h))]
      show (cancelAllStep [q] o s).bind _ = _
      rw [this, Option.bind_some]
      exact cancelAll_skip q l s

theorem cancelAll_list : ∀ (l : List OrderRec) {s t s' : State}, (∀ o ∈ l, o.pairId = q) → Refunds q s t →
    forEach (cancelAllStep [q]) l s = some s' → ∃ t', forEach (cancelAllStep [q]) l t = some t'
  | [], _, t, _, _, _, _ => ⟨t, rfl⟩
  | o :: l, s, t, s', ho, h, e => by
    obtain ⟨s1, e1, e2⟩ := Option.bind_eq_some_iff.1 (show (cancelAllStep [q] o s).bind (forEach (cancelAllStep [q]) l) = some s' from e)
    obtain ⟨t1, g1, h1⟩ := cancelAllStep_answer (ho o (by simp)) h e1
    obtain ⟨t', g2⟩ := cancelAll_list l (fun x hx => ho x (by simp [hx])) h1 e2
    refine ⟨t', ?_⟩
    show (cancelAllStep [q] o t).bind (forEach (cancelAllStep [q]) l) = some t'
    rw [g1]
    exact g2

theorem cancelAll_answer (h : Slice q Q s t) {m : MsgCancelAllOrders} (hm : m.pairIds = [q])
    (hb : ∀ d, s.bank.bal (.pairEscrow q) d = t.bank.bal (.pairEscrow q) d)
    (e : ∃ s', cancelAllOrders m s = some s') : ∃ t', cancelAllOrders m t = some t' := by
  obtain ⟨s', e⟩ := e
  unfold cancelAllOrders at e ⊢
  rw [hm] at e ⊢
  simp only [List.any_cons, List.any_nil, Bool.or_false] at e ⊢
  rw [h.getPair] at e
  split at e
  · cases e
  · rename_i hn
    rw [if_neg hn]
    rw [cancelAll_skip] at e ⊢
    have : (t.ordersBy m.orderer).filter (fun o => o.pairId == q) = (s.ordersBy m.orderer).filter (fun o => o.pairId == q) :=
      (filter_swap (R := fun o : OrderRec => o.orderer == m.orderer) h.orders).symm
    rw [this]
    exact cancelAll_list _ (fun o ho => by simpa using (List.mem_filter.1 ho).2) ⟨h.getPair, hb⟩ e

theorem canPay_same {b c : Bank} {a : Addr} {f : Denom → Int} (h : ∀ d, b.bal a d = c.bal a d) (e : CanPay b a f) : CanPay c a f :=
  fun d => h d ▸ e d

theorem activePools_same (h : Slice q Q s t) : activePools s q = activePools t q := by
  have aux : ∀ l : List PoolRec, l.filter (fun p => decide (p.pairId = q ∧ p.disabled = false)) =
      (l.filter (fun p => p.pairId == q)).filter (fun p => !p.disabled) := by
    intro l
    rw [List.filter_filter]
    refine List.filter_congr fun p _ => ?_
    rw [Bool.eq_iff_iff]
    simp [and_comm]
  unfold activePools
  rw [aux, aux, h.pools]

theorem basic_same (h : SameMarket q s t) (hsl : Slice q Q s t) {m : MsgCreatePool} (hm : m.pairId = q)
    (hb : ∀ d, s.bank.bal (.user m.creator) d = t.bank.bal (.user m.creator) d) {p : Pair} (e : BasicPoolAcceptable m s p) :
    BasicPoolAcceptable m t p where
  pair := ⟨(h.pair p (e.pair.2.trans hm)).1 e.pair.1, e.pair.2⟩
  coins := h.params ▸ e.coins
  onlyBasic := fun x hx hxp hr => e.onlyBasic x ((h.pools x (hxp.trans (e.pair.2.trans hm))).2 hx) hxp hr
  cap := by
    have := e.cap
    rw [e.pair.2, hm] at this ⊢
    rw [← activePools_same hsl, ← h.params]
    exact this
  price := e.price
  funds := canPay_same hb (h.params ▸ e.funds)

theorem ranged_same {env : Env} (h : SameMarket q s t) (hsl : Slice q Q s t) {m : MsgCreateRangedPool} (hm : m.pairId = q)
    (hb : ∀ d, s.bank.bal (.user m.creator) d = t.bank.bal (.user m.creator) d) {p : Pair} {ap : Amm.Pool}
    (e : RangedPoolAcceptable env m s p ap) : RangedPoolAcceptable env m t p ap where
  pair := ⟨(h.pair p (e.pair.2.trans hm)).1 e.pair.1, e.pair.2⟩
  coins := e.coins
  ticks := h.params ▸ e.ticks
  lowest := h.params ▸ e.lowest
  cap := by
    have := e.cap
    rw [e.pair.2, hm] at this ⊢
    rw [← activePools_same hsl, ← h.params]
    exact this
  created := e.created
  amounts := h.params ▸ e.amounts
  nonneg := e.nonneg
  funds := canPay_same hb (h.params ▸ e.funds)

theorem deposit_same (h : SameMarket q s t) {m : MsgDeposit} (hm : PoolOf s q m.poolId) (hw : WF s)
    (hb : ∀ d, s.bank.bal (.user m.depositor) d = t.bank.bal (.user m.depositor) d) {x : PoolRec} {p : Pair}
    (e : DepositAcceptable m s x p) : DepositAcceptable m t x p := by
  obtain ⟨y, h1, h2, h3⟩ := hm
  have hxy := hw.key_pool e.pool.1 h1 (e.pool.2.1.trans h2.symm)
  have hxq : x.pairId = q := by rw [hxy]; exact h3
  exact
  { pool := ⟨(h.pools x hxq).1 e.pool.1, e.pool.2⟩
    pair := ⟨(h.pair p (e.pair.2.trans hxq)).1 e.pair.1, e.pair.2⟩
    both := e.both
    coins := e.coins
    limits := fun d hd => h.reserves x.id ⟨x, e.pool.1, rfl, hxq⟩ d ▸ e.limits d hd
    funds := canPay_same hb e.funds }

theorem withdraw_same (h : SameMarket q s t) {m : MsgWithdraw} (hm : PoolOf s q m.poolId) (hw : WF s)
    (hb : ∀ d, s.bank.bal (.user m.withdrawer) d = t.bank.bal (.user m.withdrawer) d) {x : PoolRec}
    (e : WithdrawAcceptable m s x) : WithdrawAcceptable m t x := by
  obtain ⟨y, h1, h2, h3⟩ := hm
  have hxy := hw.key_pool e.pool.1 h1 (e.pool.2.1.trans h2.symm)
  have hxq : x.pairId = q := by rw [hxy]; exact h3
  exact
  { pool := ⟨(h.pools x hxq).1 e.pool.1, e.pool.2⟩
    denom := e.denom
    funds := hb _ ▸ e.funds }

end Verif.Dex

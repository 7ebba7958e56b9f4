import Verif.Proofs.OrderFlow
import Verif.Proofs.Evolve
import Verif.Proofs.Example
import Verif.Spec.Place
/-! # Orders: placement, cancellation, finishing, market-making counter, batches (C35, C38, C39, C40, C45) -/
namespace Verif.Props
open Verif Verif.Amm Verif.Dex Verif.Spec

/-! ## C35 -/

/-- C35: a limit order is rejected without effect, or exactly its offer coin is escrowed and one new order is stored. -/
theorem C35_limit_order {env : Env} {s s' : State} (hs : Reachable env s) {m : MsgLimitOrder}
    (h : step env (.limitOrder m) s = some s') :
    s' = s ∨ ∃ p o, OrderPlaced p o s s' ∧ s'.numMM = s.numMM ∧
      AsRequested .limit m.orderer m.pairId m.dir m.offer m.demand m.amt m.lifespan s.time p o := by
  cases h
  rcases tx_cases (valid := m.validateBasic) (handler := limitOrder m) (s := s) with h | ⟨_, h⟩
  · exact Or.inl h
  · obtain ⟨p, o, e0, e1, e2, e3, e4, e5, e6, e7, e8, e9, e10, _⟩ := placeOrder_spec hs.wf h
    exact Or.inr ⟨p, o, e0, e10, ⟨e1, e2, e3, e4, e5, e7, e8, e6, e9⟩⟩

/-- C35 for market orders. -/
theorem C35_market_order {env : Env} {s s' : State} (hs : Reachable env s) {m : MsgMarketOrder}
    (h : step env (.marketOrder m) s = some s') :
    s' = s ∨ ∃ p o, OrderPlaced p o s s' ∧ s'.numMM = s.numMM ∧
      AsRequested .market m.orderer m.pairId m.dir m.offer m.demand m.amt m.lifespan s.time p o := by
  cases h
  rcases tx_cases (valid := m.validateBasic) (handler := marketOrder m) (s := s) with h | ⟨_, h⟩
  · exact Or.inl h
  · obtain ⟨p, o, e0, e1, e2, e3, e4, e5, e6, e7, e8, e9, e10, _⟩ := placeOrder_spec hs.wf h
    exact Or.inr ⟨p, o, e0, e10, ⟨e1, e2, e3, e4, e5, e7, e8, e6, e9⟩⟩

/-- C35 for market-making orders, which also add one to the counter of the account on the pair. -/
theorem C35_mm_order {env : Env} {s s' : State} (hs : Reachable env s) {m : MsgLimitOrder}
    (h : step env (.mmOrder m) s = some s') :
    s' = s ∨ ∃ p o, OrderPlaced p o s s' ∧
      (∀ a q, s'.getNumMM a q = s.getNumMM a q + (if a = m.orderer ∧ q = m.pairId then 1 else 0)) ∧
      AsRequested .mm m.orderer m.pairId m.dir m.offer m.demand m.amt m.lifespan s.time p o := by
  cases h
  rcases tx_cases (valid := m.validateBasicMM) (handler := mmOrder m) (s := s) with h | ⟨_, h⟩
  · exact Or.inl h
  · refine Or.inr ?_
    revert h
    generalize tx m.validateBasicMM (mmOrder m) s = s'
    intro h
    unfold mmOrder at h
    simp only at h
    split at h
    · cases h
    · rw [Option.map_eq_some_iff] at h
      obtain ⟨t, ht, rfl⟩ := h
      obtain ⟨p, o, e0, e1, e2, e3, e4, e5, e6, e7, e8, e9, e10, _⟩ := placeOrder_spec hs.wf ht
      refine ⟨p, o, ?_, ?_, ⟨e1, e2, e3, e4, e5, e7, e8, e6, e9⟩⟩
      · exact ⟨e0.pair, e0.id, e0.fresh, e0.denoms, e0.offer, e0.bank, e0.orders, e0.newPair,
          ⟨e0.rest.params, e0.rest.lastPairId, e0.rest.lastPoolId, e0.rest.pools, e0.rest.deposits, e0.rest.withdraws,
            e0.rest.height, e0.rest.time, e0.rest.pairs⟩⟩
      · intro a q
        show ((if a = m.orderer ∧ q = m.pairId then some (s.getNumMM m.orderer m.pairId + 1) else t.numMM a q)).getD 0 = _
        rw [e10]
        split
        · rename_i hc; obtain ⟨rfl, rfl⟩ := hc; rfl
        · rfl

/-- The hypotheses are met by a chain on which the orders are accepted. -/
example : ∃ s m, Reachable Demo.env s ∧ (step Demo.env (.limitOrder m) s).map (·.orders.length) = some 3 ∧ s.orders.length = 2 := by
  obtain ⟨s, h1, h2⟩ := Demo.reach Demo.placed (fun s => (step Demo.env (.limitOrder ⟨2, 1, .buy, ⟨.native 1, 30000⟩, .native 0, 980000000000000000, 30000, 100⟩) s).map (·.orders.length) = some 3 ∧ s.orders.length = 2) (by decide +kernel)
  exact ⟨s, _, h1, h2⟩

/-! ## C38 -/

/-- C38: `CancelOrder` succeeds only for the owner's order of an earlier batch that is not cancelled already.  An unfinished
order becomes cancelled and exactly its remaining offer coin goes back to the owner, nothing else changes; a completed or
expired order is left alone. -/
theorem C38_cancel_order {env : Env} {s s' : State} (hs : Reachable env s) {m : MsgCancelOrder} (h : cancelOrder m s = some s') :
    ∃ o ∈ s.orders, ∃ p ∈ s.pairs, o.pairId = m.pairId ∧ o.id = m.orderId ∧ p.id = m.pairId ∧
      o.orderer = m.orderer ∧ o.status ≠ .canceled ∧ o.batchId < p.batchId ∧
      (Unfinished o →
        Moved s.bank s'.bank (.pairEscrow o.pairId) (.user o.orderer) o.offerDenom o.remaining ∧
        (∀ x, x ∈ s'.orders ↔ x = { o with status := .canceled } ∨ (x ∈ s.orders ∧ x ≠ o)) ∧
        (∀ a q, s'.getNumMM a q = s.getNumMM a q - (if o.typ = .mm ∧ a = o.orderer ∧ q = o.pairId then 1 else 0)) ∧
        SameFrame s s') ∧
      (¬ Unfinished o → s' = s) := by
  have hw := hs.wf
  unfold cancelOrder at h
  split at h
  · cases h
  · rename_i o ho
    obtain ⟨ho, hk⟩ := hw.getOrder_iff.1 ho
    split at h
    · cases h
    · rename_i h1
      split at h
      · cases h
      · rename_i h2
        split at h
        · cases h
        · rename_i p hp
          obtain ⟨hp, hpid⟩ := hw.getPair_iff.1 hp
          split at h
          · cases h
          · rename_i h3
            have hlt : o.batchId < p.batchId := by
              obtain ⟨_, _, q, hq, e1, _, e2, _⟩ := hw.ords o ho
              have : q = p := hw.pairsS.inj hq hp (by simp [Pair.key, e1, hk.1, hpid])
              subst this
              omega
            refine ⟨o, ho, p, hp, hk.1, hk.2, hpid, (not_not.1 h1).symm, h2, hlt, ?_, ?_⟩
            · intro hu
              have hd := (done_iff o).2 hu
              have hrem := (hw.ordsOk o ho).1
              refine ⟨finishOrder_effect hw hd hrem h, ?_, ?_, finishOrder_same hd h⟩
              · intro x
                rw [show s'.orders = _ from (finishOrder_frame hd h).1]
                exact hw.mem_setOrder ho rfl
              · exact finishOrder_mm hd h
            · intro hu
              refine finishOrder_done (o := o) (status := .canceled) ?_ h
              by_contra hc
              exact hu ((done_iff o).1 (by simpa using hc))

/-- C38: the owner can cancel: `CancelOrder` succeeds on every unfinished order of an earlier batch the escrow account can
refund (see C36). -/
theorem C38_cancel_order_succeeds {env : Env} {s : State} (hs : Reachable env s) {o : OrderRec} (ho : o ∈ s.orders) {p : Pair}
    (hp : p ∈ s.pairs) (hpid : p.id = o.pairId) (hu : Unfinished o) (hb : o.batchId < p.batchId)
    (hf : o.remaining ≤ s.bank.bal (.pairEscrow o.pairId) o.offerDenom) : ∃ s', cancelOrder ⟨o.orderer, o.pairId, o.id⟩ s = some s' := by
  have hw := hs.wf
  unfold cancelOrder
  rw [show s.getOrder o.pairId o.id = some o from hw.getOrder_iff.2 ⟨ho, rfl, rfl⟩,
    show s.getPair o.pairId = some p from hw.getPair_iff.2 ⟨hp, hpid⟩]
  have h1 : o.status ≠ .canceled := by intro e; unfold Unfinished at hu; rw [e] at hu; simp at hu
  have h2 : o.batchId ≠ p.batchId := by omega
  simp only [ne_eq, not_true_eq_false, if_false, h1, h2]
  exact finishOrder_isSome hw ho hf

open Classical in
/-- C38: `CancelAllOrders` cancels exactly the sender's unfinished orders of earlier batches in the selected pairs (all pairs
if none is selected), pays back exactly their remaining offer coins, and changes nothing else. -/
theorem C38_cancel_all {env : Env} {s s' : State} (hs : Reachable env s) {m : MsgCancelAllOrders} (h : cancelAllOrders m s = some s') :
    s'.orders = s.orders.map (fun o => if CancelTarget m s o then { o with status := .canceled } else o) ∧
    (∀ a d, s'.bank.bal a d = s.bank.bal a d + total (fun o => if CancelTarget m s o then refundEffect o a d else 0) s.orders) ∧
    s'.bank.supply = s.bank.supply ∧ SameFrame s s' := cancelAll_spec hs.wf h

/-- A cancellation that succeeds, of an order that was partially matched in the previous batch. -/
example : ∃ s, Reachable Demo.env s ∧ ((∃ o ∈ s.orders, Unfinished o ∧ o.remaining = 7798) ∧ (cancelOrder ⟨3, 1, 2⟩ s).isSome ∧
    (cancelOrder ⟨2, 1, 2⟩ s).isNone ∧ ((cancelAllOrders ⟨3, []⟩ s).map fun s' => s'.orders.map (·.status)) = some [.canceled]) :=
  Demo.reach Demo.traded _ (by decide +kernel)

end Verif.Props

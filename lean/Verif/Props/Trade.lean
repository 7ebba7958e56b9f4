import Verif.Proofs.SaneDemo
import Verif.Proofs.Stay
/-! # C59: fills of stored orders respect their limits -/
namespace Verif.Props
open Verif Verif.Amm Verif.Dex Verif.Spec

/-- C59: at the end of a block in a sane state every stored order is the result of trades on an order stored before, each of a
positive amount at a price its owner accepts; the open amount and the offer coin that remains stay non-negative.  No order
disappears. -/
theorem C59_fills_within_limits {env : Env} {s s' : State} (hc : SaneChain env s) (hs : SaneState env s) (h : step env .endBlock s = some s') :
    (∀ o' ∈ s'.orders, ∃ o ∈ s.orders, ∃ trades, FilledBy trades o o' ∧ 0 ≤ o'.openAmt ∧ o'.openAmt ≤ o.openAmt ∧ 0 ≤ o'.remaining ∧
      o'.remaining ≤ o.remaining ∧ o.received ≤ o'.received) ∧
    (∀ o ∈ s.orders, ∃ o' ∈ s'.orders, ∃ trades, FilledBy trades o o') := by
  have S := sane_of_chain hc
  have hw := S.reach.wf
  change endBlock env s = some s' at h
  have T := endBlock_trading hw hs S.orders S.prices h
  refine ⟨?_, ?_⟩
  · intro o' ho'
    obtain ⟨o, h1, l, h2, h3⟩ := T.orders o' ho'
    refine ⟨o, h1, l, h2, h3.opened, ?_, h3.remaining, ?_, ?_⟩
    · have := total_nonneg' (f := fun f : Trade => f.amt) (fun f hf => le_of_lt (h2.each f hf).1)
      have := h2.opened; omega
    · have := total_nonneg' (fun f hf => cost_nonneg (d := o.dir) (h2.each f hf).2.1 (h2.each f hf).1)
      have := h2.paid; omega
    · have := total_nonneg' (fun f hf => gain_nonneg (d := o.dir) (h2.each f hf).2.1 (h2.each f hf).1)
      have := h2.received; omega
  · intro o ho
    have hst : Stays s s' := by
      unfold endBlock at h
      split at h
      · cases h
      · split at h
        · exact stays_reach hw (executeRequests_spec hw h).reach
        · cases h; exact Stays.refl s
    obtain ⟨o', k1, k2⟩ := hst.orders o ho
    obtain ⟨o0, h1, l, h2, h3⟩ := T.orders o' k1
    have hk : o0.key = o'.key := by
      have := h2.terms
      unfold SameTerms at this
      rw [this]; rfl
    have : o0 = o := hw.ordersS.inj h1 ho (hk.trans k2)
    subst this
    exact ⟨o', k1, l, h2⟩

/-- C59: outside of the end of a block no order trades: an order present before and after another step has the same amounts. -/
theorem C59_no_trade_elsewhere {env : Env} {s s' : State} (hs : Reachable env s) {op : Op} (hop : op ≠ .endBlock) (h : step env op s = some s') :
    ∀ o' ∈ s'.orders, ∀ o ∈ s.orders, o.pairId = o'.pairId → o.id = o'.id → FilledBy [] o o' := by
  intro o' ho' o ho e1 e2
  have hw := hs.wf
  have hin : ∀ x ∈ s.orders, x.pairId = o'.pairId → x.id = o'.id → x = o := by
    intro x hx f1 f2
    refine hw.ordersS.inj hx ho ?_
    unfold OrderRec.key
    rw [f1, f2, e1, e2]
  have hself : o' ∈ s.orders → FilledBy [] o o' := by
    intro hx
    rw [hin o' hx rfl rfl]
    exact FilledBy.nil rfl rfl rfl rfl
  by_cases h1 : ∃ a b, op = .beginBlock a b
  · obtain ⟨a, b, rfl⟩ := h1
    cases h
    exact hself (List.mem_filter.1 ho').1
  · have hE := step_effect hw (by push Not at h1; exact h1) hop h
    clear h
    cases hE with
    | same _ h => subst h; exact hself ho'
    | pair m b hb h => subst h; exact hself ho'
    | pool m pr cs mt h => rw [h.rest.2.2.2.2.2.1] at ho'; exact hself ho'
    | ranged m pr cs mt h => rw [h.rest.2.2.2.2.2.1] at ho'; exact hself ho'
    | deposit m p r h => rw [h.rest.2.2.2.2.2.1] at ho'; exact hself ho'
    | withdraw m p r h => rw [h.rest.2.2.2.2.2.1] at ho'; exact hself ho'
    | order _ hop p x h hpos =>
      rcases (h.orders o').1 ho' with hx | rfl
      · exact hself hx
      · have := h.id.2 o ho (e1.trans h.pair.2)
        omega
    | cancel _ hop hf hs ho2 hl =>
      rcases ho2 o' ho' with hx | ⟨x, h1, _, rfl⟩
      · exact hself hx
      · rw [hin x h1 rfl rfl]
        exact FilledBy.nil rfl rfl rfl rfl
    | transfer src dst cs b hb h => subst h; exact hself ho'
    | params p hv h => subst h; exact hself ho'

/-- C59: in every state of a sane chain every stored order is explained by trades since it was placed.  So it has traded at most
its amount and paid at most its offer; a seller paid exactly the base coin it sold, a buyer received exactly the base coin bought. -/
theorem C59_orders_explained {env : Env} {s : State} (hc : SaneChain env s) : ∀ o ∈ s.orders, Explained o ∧
    o.openAmt ≤ o.amount ∧ o.remaining ≤ o.offer ∧ 0 ≤ o.received ∧
    (o.dir = .sell → o.offer - o.remaining = o.amount - o.openAmt) ∧ (o.dir = .buy → o.received = o.amount - o.openAmt) := by
  intro o ho
  have hE := (sane_of_chain hc).orders o ho
  have hf := hE.facts
  refine ⟨hE, hf.1, hf.2.1, hf.2.2.1, ?_, hf.2.2.2.2⟩
  intro hd
  have h1 := hf.2.2.2.1 hd
  have h2 := hE.offer
  rw [hd] at h2
  simp only [NeededOffer] at h2
  omega

/-- C59: the last price of a pair in a sane chain is positive. -/
theorem C59_last_price_positive {env : Env} {s : State} (hc : SaneChain env s) : ∀ p ∈ s.pairs, ∀ lp, p.lastPrice = some lp → 0 < lp :=
  (sane_of_chain hc).prices

/-- C59: pools without a price range never have a negative price, so there the condition on prices is void. -/
theorem C59_basic_pools_are_sane {env : Env} {s : State} (hs : Reachable env s) (hb : ∀ p ∈ s.pools, p.range = none) : PricesNonneg env s := by
  intro pool hp pair _ _ ap pp h1 h2
  have hw := hs.wf
  unfold ammPool at h1
  rw [hb pool hp] at h1
  simp only [Option.some.injEq] at h1
  subst h1
  exact price_nonneg_basic (hw.bankNN _ _) (hw.bankNN _ _) rfl h2

/-- A chain with a basic and a ranged pool: the end of block trades both orders. -/
example : ∃ s, SaneChain Demo.env s ∧ SaneState Demo.env s ∧ s.orders.length = 2 ∧ s.pools.any (fun p => p.range.isSome) = true ∧
    ((step Demo.env .endBlock s).map fun t => t.orders.map (fun o => o.received)) = some [2000, 29979] := by
  obtain ⟨s, h1, h2, h3⟩ := Demo.saneReach (Demo.placed ++ [.createRangedPool ⟨1, 1, [⟨.native 0, 2000000⟩, ⟨.native 1, 2000000⟩], 900000000000000000, 1100000000000000000, 1000000000000000000⟩])
    (fun s => s.orders.length = 2 ∧ s.pools.any (fun p => p.range.isSome) = true ∧
      ((step Demo.env .endBlock s).map fun t => t.orders.map (fun o => o.received)) = some [2000, 29979]) (by decide +kernel)
  exact ⟨s, h1, h2, h3⟩

end Verif.Props

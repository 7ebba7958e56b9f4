import Verif.Proofs.TickPrices
import Verif.Proofs.Example
import Verif.Props.Price
import Verif.Props.Ranges
/-! # C75: every price the module stores is a tick -/
namespace Verif.Props
open Verif Verif.Amm Verif.Dex Verif.Spec

/-- C75: after any history with sane parameters and a fixed tick precision, the price of every order and the last price of every
pair is a tick.  The pools take part with all the orders they place, and the first price of a pair is found by search. -/
theorem C75_prices_are_ticks {env : Env} (hsq : env.sqrt = approxSqrt) {prec : Nat} {s : State}
    (hs : ReachableWith env (fun p => SaneParams p ∧ (∀ id, p.dustCollector ≠ .poolReserve id) ∧ p.tickPrec = prec) s) :
    (∀ o ∈ s.orders, IsTick prec o.price) ∧ ∀ p ∈ s.pairs, ∀ last, p.lastPrice = some last → IsTick prec last := by
  obtain ⟨s0, ops, hg, hp, hops, h⟩ := hs
  have := reachable_tick hsq (prec := prec) (s := s)
    ⟨s0, ops, hg, ⟨⟨hp.1, hp.2.1⟩, hp.2.2⟩, fun p h => ⟨⟨(hops p h).1, (hops p h).2.1⟩, (hops p h).2.2⟩, h⟩
  exact ⟨this.orders, this.last⟩

/-- C75: with a fixed tick precision, the ends of the range of every ranged pool are ticks, whatever the other parameters. -/
theorem C75_ranges_are_ticks {env : Env} {prec : Nat} {s : State} (hs : ReachableWith env (fun p => p.tickPrec = prec) s) :
    ∀ p ∈ s.pools, ∀ lo hi, p.range = some (lo, hi) → IsTick prec lo ∧ IsTick prec hi :=
  reachable_rangeTicks hs

/-- C75: hence the last price always lies between its own price limits: an order at the last price is never out of limits. -/
theorem C75_last_price_within_limits {env : Env} (hsq : env.sqrt = approxSqrt) {prec : Nat} {s : State}
    (hs : ReachableWith env (fun p => SaneParams p ∧ (∀ id, p.dustCollector ≠ .poolReserve id) ∧ p.tickPrec = prec) s)
    (p : Pair) (hp : p ∈ s.pairs) (last lo hi : Int) (hl : p.lastPrice = some last)
    (h : priceLimits last s.params.maxPriceLimitRatio s.params.tickPrec = some (lo, hi)) : lo ≤ last ∧ last ≤ hi := by
  have ht := (C75_prices_are_ticks hsq hs).2 p hp last hl
  obtain ⟨s0, ops, hg, h0, hops, hr⟩ := hs
  have h1 := params_run (P := fun p => SaneParams p ∧ (∀ id, p.dustCollector ≠ .poolReserve id) ∧ p.tickPrec = prec) (genesis_wf hg) h0 hops hr
  refine ((C06_price_limits last _ _ (isTick_pos ht) h1.1.ratio.1 (by have := h1.1.ratio.2; rw [show (10:Int) ^ 18 = Dec.one by decide]; exact this)).1 lo hi h).2 ?_
  rw [h1.2.2]
  exact ht

/-- C06: in a history with sane parameters the last price is positive, so the window of `C06_limit_order` needs no condition. -/
theorem C06_limit_order_window {env : Env} (hsq : env.sqrt = approxSqrt) {s s' : State}
    (hs : ReachableWith env (fun p => SaneParams p ∧ ∀ id, p.dustCollector ≠ .poolReserve id) s) {m : MsgLimitOrder}
    (h : step env (.limitOrder m) s = some s') :
    s' = s ∨ ∃ p o, OrderPlaced p o s s' ∧ o.dir = m.dir ∧ TickFor m.dir s.params.tickPrec m.price o.price ∧
      (∀ last, p.lastPrice = some last → ∃ lo hi, PriceWindow s.params.tickPrec last s.params.maxPriceLimitRatio lo hi ∧
        lo ≤ m.price ∧ m.price ≤ hi ∧ lo ≤ o.price ∧ o.price ≤ hi) ∧
      (p.lastPrice = none → lowestTick s.params.tickPrec ≤ o.price ∧ o.price ≤ highestTick s.params.tickPrec) := by
  obtain ⟨h1, h2⟩ := C59_params_suffice hsq hs
  have I := sane_of_chain h1
  rcases C06_limit_order I.reach h2.params h with h3 | ⟨p, o, a, b, c, d, e⟩
  · exact Or.inl h3
  · exact Or.inr ⟨p, o, a, b, c, fun last hl => d last hl (I.prices p a.pair.1 last hl), e⟩

/-- A history with a fixed tick precision in which a basic and a ranged pool and two orders have traded: the pair has a last
price, with price limits. -/
example : ∃ s, ReachableWith Demo.env (fun p => SaneParams p ∧ (∀ id, p.dustCollector ≠ .poolReserve id) ∧ p.tickPrec = 3) s ∧
    s.orders.map (fun o => o.received) = [2000, 29979] ∧ s.pools.map (fun p => p.range) = [none, some (9 * 10 ^ 17, 11 * 10 ^ 17)] ∧
    ∃ last, s.pairs.map (fun p => p.lastPrice) = [some last] ∧ (priceLimits last s.params.maxPriceLimitRatio 3).isSome := by
  have h : (run Demo.env (Demo.placed ++ [.createRangedPool ⟨1, 1, [⟨.native 0, 2000000⟩, ⟨.native 1, 2000000⟩], 900000000000000000, 1100000000000000000, 1000000000000000000⟩,
      .endBlock]) Demo.s0).any (fun s => decide (s.orders.map (fun o => o.received) = [2000, 29979]) &&
        decide (s.pools.map (fun p => p.range) = [none, some (9 * 10 ^ 17, 11 * 10 ^ 17)]) &&
        (match s.pairs.map (fun p => p.lastPrice) with
          | [some last] => (priceLimits last s.params.maxPriceLimitRatio 3).isSome
          | _ => false)) = true := by decide +kernel
  rw [Option.any_eq_true] at h
  obtain ⟨s, h1, h2⟩ := h
  simp only [Bool.and_eq_true, decide_eq_true_eq] at h2
  obtain ⟨⟨h2, h3⟩, h4⟩ := h2
  refine ⟨s, ⟨Demo.s0, _, Demo.genesis, ⟨⟨by decide +kernel, by decide +kernel⟩, ⟨(fun id e => by cases e), by decide +kernel⟩⟩, ?_, h1⟩, h2, h3, ?_⟩
  · intro p hp
    simp [Demo.placed] at hp
  · split at h4
    · rename_i last e
      exact ⟨last, e, h4⟩
    · cases h4

/-- An order placed next to a last price in such a history. -/
example : ∃ s s', ReachableWith Demo.env (fun p => SaneParams p ∧ ∀ id, p.dustCollector ≠ .poolReserve id) s ∧
    step Demo.env (.limitOrder ⟨3, 1, .sell, ⟨.native 0, 30000⟩, .native 1, 995000000000000000, 30000, 100⟩) s = some s' ∧
    s'.orders.length = s.orders.length + 1 ∧ ∀ p ∈ s.pairs, p.lastPrice.isSome := by
  have h : (run Demo.env Demo.traded Demo.s0).any (fun s => (step Demo.env (.limitOrder ⟨3, 1, .sell, ⟨.native 0, 30000⟩, .native 1, 995000000000000000, 30000, 100⟩) s).any
      (fun s' => decide (s'.orders.length = s.orders.length + 1) && decide (∀ p ∈ s.pairs, p.lastPrice.isSome))) = true := by decide +kernel
  rw [Option.any_eq_true] at h
  obtain ⟨s, h1, h2⟩ := h
  rw [Option.any_eq_true] at h2
  obtain ⟨s', h2, h3⟩ := h2
  simp only [Bool.and_eq_true, decide_eq_true_eq] at h3
  refine ⟨s, s', ⟨Demo.s0, _, Demo.genesis, ⟨⟨by decide +kernel, by decide +kernel⟩, fun id e => by cases e⟩, ?_, h1⟩, h2, h3.1, h3.2⟩
  intro p hp
  simp [Demo.traded, Demo.placed] at hp

/-- C75: a change of the tick precision can leave prices that are no ticks: an order placed with precision 3 at the price 1.01 is
no tick of precision 1. -/
theorem C75_precision_change_breaks : ∃ s, ReachableWith Demo.env SaneParams s ∧ ∃ o ∈ s.orders, ¬ o.done ∧ ¬ IsTick s.params.tickPrec o.price := by
  have h : (run Demo.env (Demo.placed ++ [.setParams { Demo.params with tickPrec := 1 }]) Demo.s0).any (fun s => decide (s.params.tickPrec = 1) &&
      s.orders.any (fun o => !o.done && decide (0 < o.price) && decide (priceToDownTick? o.price 1 ≠ some o.price))) = true := by decide +kernel
  rw [Option.any_eq_true] at h
  obtain ⟨s, h1, h2⟩ := h
  simp only [Bool.and_eq_true, decide_eq_true_eq, List.any_eq_true] at h2
  obtain ⟨h2, o, ho, ⟨h3, h4⟩, h5⟩ := h2
  refine ⟨s, ⟨Demo.s0, _, Demo.genesis, ⟨by decide +kernel, by decide +kernel⟩, ?_, h1⟩, o, ho, by simpa using h3, ?_⟩
  · intro p hp
    simp [Demo.placed] at hp
    rw [hp]
    exact ⟨by decide +kernel, by decide⟩
  · rw [h2]
    exact fun ht => h5 ((downTick_self h4).2 ht)

end Verif.Props

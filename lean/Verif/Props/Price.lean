import Verif.Spec.Price
import Verif.Proofs.BatchTrace
import Verif.Proofs.PoolLive
import Verif.Proofs.OrderFlow
import Verif.Proofs.Example
/-! # C06: price limits -/
namespace Verif.Props
open Verif Verif.Amm Verif.Dex Verif.Spec

theorem roundedProduct {a b : Int} (h : 0 ≤ a * b) : RoundedProduct a b (Dec.mul a b) := by
  have := Dec.chop_bounds h
  unfold RoundedProduct Dec.mul
  rw [show (10:Int) ^ 18 = Dec.one by decide]
  refine ⟨this.1, this.2, ?_⟩
  unfold Dec.chopRound
  rw [if_pos h]
  unfold Dec.chopRoundNN
  simp only
  have e1 : Dec.one = 10 ^ 18 := by decide
  have e2 : Dec.half = 5 * 10 ^ 17 := by decide
  rw [e1, e2]
  generalize a * b = d
  intro ht
  split at ht <;> rename_i c1
  · rw [if_pos c1] at *; omega
  · rw [if_neg c1]
    split at ht <;> rename_i c2
    · omega
    · rw [if_neg c2]
      split <;> omega

/-- The price limits of a positive last price, for a ratio below one, are the window of ticks between `last * (1 - ratio)`
and `last * (1 + ratio)`; a last price that is a tick lies in it.  They are defined unless the lower product rounds to 0. -/
theorem C06_price_limits (last ratio : Int) (prec : Nat) (hl : 0 < last) (h0 : 0 ≤ ratio) (h1 : ratio < 10 ^ 18) :
    (∀ lo hi, priceLimits last ratio prec = some (lo, hi) →
      PriceWindow prec last ratio lo hi ∧ (IsTick prec last → lo ≤ last ∧ last ≤ hi)) ∧
    (10 ^ 18 < 2 * (last * (10 ^ 18 - ratio)) → ∃ lo hi, priceLimits last ratio prec = some (lo, hi)) := by
  have e1 : (10:Int) ^ 18 = Dec.one := by decide
  rw [e1] at h1 ⊢
  have p1 : 0 ≤ last * (Dec.one - ratio) := mul_nonneg (by omega) (by omega)
  have p2 : 0 ≤ last * (Dec.one + ratio) := mul_nonneg (by omega) (by have : (0:Int) < Dec.one := by decide
                                                                      omega)
  have m1 : 0 ≤ Dec.mul last (Dec.one - ratio) := Dec.chop_nonneg p1
  have hone : Dec.mul last Dec.one = last := Dec.chop_int
  have m2 : last ≤ Dec.mul last (Dec.one + ratio) := by
    conv_lhs => rw [← hone]
    exact mul_mono_right (by omega) (by decide) (by omega)
  have m3 : Dec.mul last (Dec.one - ratio) ≤ last := by
    conv_rhs => rw [← hone]
    exact mul_mono_right (by omega) (by omega) (by omega)
  have r1 := roundedProduct p1
  have r2 := roundedProduct p2
  constructor
  · intro lo hi h
    unfold priceLimits at h
    split at h
    · rename_i a b ha hb
      simp only [Option.some.injEq, Prod.mk.injEq] at h
      obtain ⟨rfl, rfl⟩ := h
      unfold priceToUpTick? at ha
      unfold priceToDownTick? at hb
      split at ha
      · cases ha
      · rename_i hne
        rw [if_neg (by omega)] at hb
        have ha := Option.some.inj ha
        have hb := Option.some.inj hb
        have c1 : IsCeilTick prec (Dec.mul last (Dec.one - ratio)) a := by rw [← ha]; exact isCeil_up (by omega) prec
        have c2 : IsFloorTick prec (Dec.mul last (Dec.one + ratio)) b := by
          rw [← hb]; exact ⟨isTick_down (by omega) prec, down_le (by omega) prec, fun u hu hup => down_greatest (by omega) hu hup⟩
        refine ⟨⟨_, _, by rw [e1]; exact r1, by rw [e1]; exact r2, c1, c2⟩, fun ht => ⟨c1.2.2 _ ht m3, c2.2.2 _ ht m2⟩⟩
    · cases h
  · intro h
    have hx : Dec.mul last (Dec.one - ratio) ≠ 0 := by
      intro e
      have := r1.1
      rw [e, e1] at this
      omega
    refine ⟨priceToUpTick (Dec.mul last (Dec.one - ratio)) prec, priceToDownTick (Dec.mul last (Dec.one + ratio)) prec, ?_⟩
    unfold priceLimits priceToUpTick? priceToDownTick?
    rw [if_neg hx, if_neg (show ¬ Dec.mul last (Dec.one + ratio) = 0 by omega)]

example : priceLimits (Dec.one) 100000000000000000 3 = some (900000000000000000, 1100000000000000000) := by decide

/-- An accepted limit order is stored at a tick, the nearest one to the price asked for that is not worse for the orderer,
and (for sane parameters) that tick is within the price limits of the pair, as is the price asked for; without a last price
the limits are the lowest and the highest tick. -/
theorem C06_limit_order {env : Env} {s s' : State} (hs : Reachable env s) (hp : SaneParams s.params) {m : MsgLimitOrder}
    (h : step env (.limitOrder m) s = some s') :
    s' = s ∨ ∃ p o, OrderPlaced p o s s' ∧ o.dir = m.dir ∧ TickFor m.dir s.params.tickPrec m.price o.price ∧
      (∀ last, p.lastPrice = some last → 0 < last → ∃ lo hi, PriceWindow s.params.tickPrec last s.params.maxPriceLimitRatio lo hi ∧
        lo ≤ m.price ∧ m.price ≤ hi ∧ lo ≤ o.price ∧ o.price ≤ hi) ∧
      (p.lastPrice = none → lowestTick s.params.tickPrec ≤ o.price ∧ o.price ≤ highestTick s.params.tickPrec) := by
  cases h
  rcases tx_cases (valid := m.validateBasic) (handler := limitOrder m) (s := s) with h | ⟨hv, h⟩
  · exact Or.inl h
  · refine Or.inr ?_
    obtain ⟨p, o, e0, e1, e2, e3, e4, e5, e6, e7, e8, e9, e10, e11, e12, _⟩ := placeOrder_spec hs.wf h
    have hmp : 0 < m.price := by
      unfold MsgLimitOrder.validateBasic at hv
      by_contra hc
      rw [if_pos (show ¬ 0 < m.price from hc)] at hv
      split at hv <;> exact absurd hv (by decide)
    have ht : TickFor m.dir s.params.tickPrec m.price o.price := by
      unfold orderPrice at e11
      cases hd : m.dir <;> rw [hd] at e11 <;> simp only at e11
      · unfold priceToDownTick? at e11
        rw [if_neg (by omega)] at e11
        rw [← Option.some.inj e11]
        exact ⟨isTick_down hmp _, down_le hmp _, fun u hu hup => down_greatest hmp hu hup⟩
      · unfold priceToUpTick? at e11
        rw [if_neg (by omega)] at e11
        rw [← Option.some.inj e11]
        exact isCeil_up hmp _
    have hin : ∀ lo hi, IsTick s.params.tickPrec lo → IsTick s.params.tickPrec hi → lo ≤ m.price → m.price ≤ hi →
        lo ≤ o.price ∧ o.price ≤ hi := by
      intro lo hi t1 t2 l1 l2
      unfold TickFor at ht
      cases hd : m.dir <;> rw [hd] at ht <;> simp only at ht
      · exact ⟨ht.2.2 lo t1 l1, le_trans ht.2.1 l2⟩
      · exact ⟨le_trans l1 ht.2.1, ht.2.2 hi t2 l2⟩
    refine ⟨p, o, e0, e4, ht, ?_, ?_⟩
    · intro last hl hl0
      unfold priceAllowed at e12
      simp only [hl] at e12
      split at e12
      · cases e12
      · rename_i lo hi hlim
        have hw := (C06_price_limits last s.params.maxPriceLimitRatio s.params.tickPrec hl0 hp.ratio.1 hp.ratio.2).1 lo hi hlim
        have hb : lo ≤ m.price ∧ m.price ≤ hi := by
          simp only [Bool.and_eq_true, Bool.not_eq_true', decide_eq_false_iff_not] at e12; omega
        obtain ⟨x, y, _, _, c1, c2⟩ := hw.1
        exact ⟨lo, hi, hw.1, hb.1, hb.2, hin lo hi c1.1 c2.1 hb.1 hb.2⟩
    · intro hl
      unfold priceAllowed at e12
      simp only [hl] at e12
      unfold lowestTick? at e12
      rw [if_pos hp.prec] at e12
      simp only [Option.map_some] at e12
      have hb : lowestTick s.params.tickPrec ≤ m.price ∧ m.price ≤ highestTick s.params.tickPrec := by
        simp only [Bool.and_eq_true, Bool.not_eq_true', decide_eq_false_iff_not] at e12; omega
      exact hin _ _ ⟨1, s.params.tickPrec, by decide, Nat.one_lt_pow (by omega) (by decide), by simp [lowestTick]⟩ (isTick_down (by decide) _) hb.1 hb.2

example : ∃ s m, Reachable Demo.env s ∧ SaneParams s.params ∧ (∃ p ∈ s.pairs, p.lastPrice = some 990000000000000000) ∧
    (step Demo.env (.limitOrder m) s).map (·.orders.length) = some (s.orders.length + 1) := by
  obtain ⟨s, h1, h2⟩ := Demo.reach Demo.traded (fun s => (0 ≤ s.params.maxPriceLimitRatio ∧ s.params.maxPriceLimitRatio < Dec.one ∧ s.params.tickPrec ≤ 18) ∧
    (∃ p ∈ s.pairs, p.lastPrice = some 990000000000000000) ∧
    (step Demo.env (.limitOrder ⟨2, 1, .buy, ⟨.native 1, 30000⟩, .native 0, 980000000000000000, 30000, 100⟩) s).map (·.orders.length) = some (s.orders.length + 1)) (by decide +kernel)
  exact ⟨s, _, h1, ⟨⟨h2.1.1, h2.1.2.1⟩, h2.1.2.2⟩, h2.2⟩

/-- The bound on the ratio is needed: with a ratio of exactly one, which parameter validation accepts, the price limits of
every last price panic, so the next batch halts the chain as soon as some pair has a last price. -/
theorem C06_ratio_one_halts {env : Env} {s : State} (hs : Reachable env s) (hr : s.params.maxPriceLimitRatio = 10 ^ 18)
    {p : Pair} (hp : p ∈ s.pairs) {last : Int} (hl : p.lastPrice = some last) (hb : s.height % s.params.batchSize = 0) :
    (∀ l, priceLimits l (10 ^ 18) s.params.tickPrec = none) ∧ step env .endBlock s = none := by
  have key : ∀ l, priceLimits l (10 ^ 18) s.params.tickPrec = none := by
    intro l
    unfold priceLimits priceToUpTick?
    rw [show Dec.one - (10:Int) ^ 18 = 0 by decide, show Dec.mul l 0 = 0 by unfold Dec.mul; rw [mul_zero]; decide]
    rfl
  refine ⟨key, ?_⟩
  change endBlock env s = none
  unfold endBlock
  split
  · rfl
  · by_contra hne
    obtain ⟨s', h⟩ := Option.ne_none_iff_exists'.1 hne
    obtain ⟨t, t', hw, hp', hm, hpar, _⟩ := batch_matches hs.wf h hp
    obtain ⟨pools, _, _, _, hc⟩ := (executeMatching_flow hw hp' hm).cases
    have hk : ∀ os, keeperMatch env t.params os pools p.lastPrice = none := by
      intro os
      unfold keeperMatch
      rw [hl]
      simp only [Params.priceLimits, hpar, hr, key]
    rcases hc with ⟨hc, _⟩ | ⟨out, hc, _⟩ <;> rw [hk] at hc <;> cases hc

/-- Such a state is reachable from valid parameters: after a trade the parameters are changed to a ratio of one. -/
example : ∃ s, Reachable Demo.env s ∧ s.params.maxPriceLimitRatio = 10 ^ 18 ∧ s.params.validate = true ∧
    (∃ p ∈ s.pairs, p.lastPrice = some 990000000000000000) ∧ s.height % s.params.batchSize = 0 := by
  obtain ⟨s, h1, h2⟩ := Demo.reach (Demo.traded ++ [.setParams { Demo.params with maxPriceLimitRatio := 10 ^ 18 }]) (fun s =>
    s.params.maxPriceLimitRatio = 10 ^ 18 ∧ s.params.validate = true ∧
    (∃ p ∈ s.pairs, p.lastPrice = some 990000000000000000) ∧ s.height % s.params.batchSize = 0) (by decide +kernel)
  exact ⟨s, h1, h2⟩

theorem tickFor_unique {dir : Dir} {prec : Nat} {price a b : Int} (h1 : TickFor dir prec price a) (h2 : TickFor dir prec price b) : a = b := by
  unfold TickFor at h1 h2
  cases dir <;> simp only at h1 h2
  · exact le_antisymm (h2.2.2 _ h1.1 h1.2.1) (h1.2.2 _ h2.1 h2.2.1)
  · exact le_antisymm (h1.2.2 _ h2.1 h2.2.1) (h2.2.2 _ h1.1 h1.2.1)

theorem neededOffer_unique {dir : Dir} {price amt a b : Int} (h1 : NeededOffer dir price amt a) (h2 : NeededOffer dir price amt b) : a = b := by
  unfold NeededOffer at h1 h2
  cases dir <;> simp only at h1 h2
  · omega
  · omega

/-- C35: a limit order message is accepted exactly if the conditions of `LimitAcceptable` hold, and then the stored order has
the tick price and exactly the needed offer coin. -/
theorem C35_limit_accepted_iff {env : Env} {s : State} (hs : Reachable env s) {m : MsgLimitOrder} (hv : m.validateBasic = true) :
    (∃ s', limitOrder m s = some s') ↔ ∃ p tick needed, LimitAcceptable m s p tick needed := by
  have hw := hs.wf
  have hmp : 0 < m.price := by
    unfold MsgLimitOrder.validateBasic at hv
    by_contra hc
    rw [if_pos (show ¬ 0 < m.price from hc)] at hv
    split at hv <;> exact absurd hv (by decide)
  have hop : ∀ p : Pair, ∃ t, orderPrice s.params p .limit m.dir m.price = some t ∧ TickFor m.dir s.params.tickPrec m.price t := by
    intro p
    cases hd : m.dir
    · exact ⟨_, by unfold orderPrice priceToDownTick?; simp only; rw [if_neg (by omega)],
        isTick_down hmp _, down_le hmp _, fun u hu hup => down_greatest hmp hu hup⟩
    · exact ⟨_, by unfold orderPrice priceToUpTick?; simp only; rw [if_neg (by omega)], isCeil_up hmp _⟩
  have hno : ∀ t, 0 ≤ t * m.amt → NeededOffer m.dir t m.amt (offerCoinAmount m.dir t m.amt) := by
    intro t h0
    cases m.dir
    · have := quoteCeil_spec (p := t) (a := m.amt) h0
      have h1 : Dec.one = 1000000000000000000 := rfl
      rw [h1] at this
      show t * m.amt ≤ quoteCeil t m.amt * _ ∧ _
      refine ⟨this.2.1, ?_⟩
      show (quoteCeil t m.amt - 1) * 1000000000000000000 < t * m.amt
      omega
    · show m.amt = m.amt
      rfl
  have hlim : ∀ p : Pair, priceAllowed s.params p .limit m.price = true ↔ (match p.lastPrice with
      | some last => ∃ lo hi, priceLimits last s.params.maxPriceLimitRatio s.params.tickPrec = some (lo, hi) ∧ lo ≤ m.price ∧ m.price ≤ hi
      | none => s.params.tickPrec ≤ 18 ∧ lowestTick s.params.tickPrec ≤ m.price ∧ m.price ≤ highestTick s.params.tickPrec) := by
    intro p
    unfold priceAllowed
    cases hl : p.lastPrice with
    | some last =>
      simp only [Params.priceLimits]
      cases hpl : priceLimits last s.params.maxPriceLimitRatio s.params.tickPrec with
      | none => simp
      | some r =>
        obtain ⟨lo, hi⟩ := r
        simp only [Bool.and_eq_true, Bool.not_eq_true', decide_eq_false_iff_not, Option.some.injEq, Prod.mk.injEq]
        constructor
        · intro h; exact ⟨lo, hi, ⟨rfl, rfl⟩, by omega, by omega⟩
        · rintro ⟨a, b, ⟨rfl, rfl⟩, h⟩; omega
    | none =>
      simp only [lowestTick?]
      split
      · rename_i h0
        split at h0
        · cases h0
        · rename_i h1; simp [h1]
      · rename_i lo hi h0
        split at h0
        · rename_i h1
          simp only [Option.map_some, Option.some.injEq, Prod.mk.injEq] at h0
          obtain ⟨rfl, rfl⟩ := h0
          simp only [Bool.and_eq_true, Bool.not_eq_true', decide_eq_false_iff_not, h1, true_and]
          omega
        · cases h0
  constructor
  · rintro ⟨s', h⟩
    obtain ⟨p, rprice, b, g3, g1, g2, g4, g5, g5', g6, g7, g8, g9, _⟩ := placeOrder_some h
    obtain ⟨hp, hid⟩ := hw.getPair_iff.1 g3
    obtain ⟨_, _, f3, f4, _⟩ := placed_facts (hw.pairNe p hp).1 g5 g8
    obtain ⟨t, ht1, ht2⟩ := hop p
    have : t = rprice := Option.some.inj (ht1.symm.trans g6)
    subst this
    refine ⟨p, t, _, ⟨hp, hid⟩, g1, g2, ⟨?_, ?_⟩, (hlim p).1 g4, ht2, ⟨hno t (by positivity), g7⟩, f3, ?_⟩
    · rw [g5]; cases m.dir <;> simp [Pair.offerDenom]
    · rw [g5']; cases m.dir <;> simp [Pair.demandDenom]
    · unfold isTooSmallOrderAmount at g8
      simp only [Bool.or_eq_false_iff, decide_eq_false_iff_not, not_lt] at g8
      have := g8.2
      unfold Dec.mulInt Dec.ofInt minCoinAmount Dec.one at this
      norm_num at this ⊢
      exact this
  · rintro ⟨p, t, n, ha⟩
    obtain ⟨t', ht1, ht2⟩ := hop p
    have := tickFor_unique ht2 ha.onTick
    subst this
    have hn : n = offerCoinAmount m.dir t' m.amt := by
      refine neededOffer_unique ha.covered.1 (hno t' ?_)
      have := ha.size.2
      norm_num at this
      omega
    subst hn
    unfold limitOrder placeOrder
    rw [if_neg (by have := ha.funds; omega), if_neg (by have := ha.lifespan; omega)]
    rw [show s.getPair m.pairId = some p from hw.getPair_iff.2 ha.pair]
    simp only
    rw [(hlim p).2 ha.limits]
    rw [if_neg (by decide), if_neg (by
      rintro (h | h)
      · exact h (by rw [ha.denoms.1]; cases m.dir <;> simp [Pair.offerDenom])
      · exact h (by rw [ha.denoms.2]; cases m.dir <;> simp [Pair.demandDenom]))]
    rw [ht1]
    simp only
    have hts : isTooSmallOrderAmount m.amt t' = false := by
      unfold isTooSmallOrderAmount
      simp only [Bool.or_eq_false_iff, decide_eq_false_iff_not, not_lt]
      have h1 := ha.size.1
      have h2 := ha.size.2
      refine ⟨by unfold minCoinAmount; omega, ?_⟩
      unfold Dec.mulInt Dec.ofInt minCoinAmount Dec.one
      norm_num at h2 ⊢
      exact h2
    rw [if_neg (by have := ha.covered.2; omega), hts, if_neg (by decide)]
    have hd : m.offer.denom = p.offerDenom m.dir := by rw [ha.denoms.1]; cases m.dir <;> simp [Pair.offerDenom]
    obtain ⟨_, _, _, _, f5⟩ := placed_facts (hw.pairNe p ha.pair.1).1 hd hts
    obtain ⟨b, hb⟩ := send_isSome (b := s.bank) (src := .user m.orderer) (dst := .pairEscrow p.id)
      (cs := [⟨m.offer.denom, offerCoinAmount m.dir t' m.amt⟩]) (by simpa using f5) (by
        intro c hc
        simp only [List.mem_singleton] at hc
        subst hc
        have := ha.covered.2
        have := ha.funds
        simp only [amountOf, List.filter, decide_true, List.map, List.sum_cons, List.sum_nil, BEq.rfl] 
        simp
        omega)
    rw [hb]
    exact ⟨_, rfl⟩

example : ∃ s m p t n, Reachable Demo.env s ∧ m.validateBasic = true ∧ LimitAcceptable m s p t n := by
  obtain ⟨s, h1, h2⟩ := Demo.reach Demo.traded (fun s =>
    (limitOrder ⟨2, 1, .buy, ⟨.native 1, 30000⟩, .native 0, 980000000000000000, 30000, 100⟩ s).isSome) (by decide +kernel)
  obtain ⟨p, t, n, h⟩ := (C35_limit_accepted_iff h1 (m := ⟨2, 1, .buy, ⟨.native 1, 30000⟩, .native 0, 980000000000000000, 30000, 100⟩) (by decide)).1 (Option.isSome_iff_exists.1 h2)
  exact ⟨s, _, p, t, n, h1, by decide, h⟩

end Verif.Props

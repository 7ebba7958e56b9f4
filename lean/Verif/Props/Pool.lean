import Verif.Proofs.PoolProduct
import Verif.Proofs.RangedCreate
import Verif.Props.View
/-! # C11-C15, C51, C55, C56: liquidity pools

A `Pool` is a basic pool (`range = none`) or a ranged pool.  Decimals are integers scaled by `10^18`.  `sqrt` is the
square-root routine of the library; the theorems hold for every routine that is non-negative on non-negative numbers,
and `C11_sqrt_nonneg` shows that the library's routine is one. -/
namespace Verif.Props
open Verif Verif.Amm Verif.Spec

/-- Total offer coin of a list of orders. -/
def totalOffer (l : List Order) : Int := (l.map (·.offer)).sum

/-- C11 (hypothesis): the library's Newton iteration never gives a negative square root. -/
theorem C11_sqrt_nonneg (d : Int) (hd : 0 ≤ d) : 0 ≤ approxSqrt d := approxSqrt_nonneg d hd

/-- C11: the buy orders of a pool never offer more quote coin than the quote reserve, and its sell orders never offer
more base coin than the base reserve. -/
theorem C11_offers_within_reserves (sqrt : Int → Int) (hs : ∀ d, 0 ≤ d → 0 ≤ sqrt d) (poolId : Nat) (p : Pool)
    (lowest highest : Int) (prec : Nat) (hrx : 0 ≤ p.rx) (hry : 0 ≤ p.ry) (hlow : 0 < lowest) (hhigh : 0 < highest) :
    totalOffer (poolBuyOrders sqrt poolId p lowest highest prec) ≤ p.rx ∧
    totalOffer (poolSellOrders sqrt poolId p lowest highest prec) ≤ p.ry := by
  constructor
  · obtain ⟨_, h⟩ := poolBuy_gen hs (prec := prec) hrx hry hlow hhigh
    unfold poolBuyOrders totalOffer
    cases hr : poolBuyOrdersRaw sqrt p lowest highest prec with
    | done l =>
      have := (h l hr).1
      simpa [LoopRes.orders, newPoolOrder, newBaseOrder, offerCoinAmount, buyCost, Function.comp_def] using this
    | panic => simpa [LoopRes.orders] using hrx
    | outOfFuel => simpa [LoopRes.orders] using hrx
  · have h := poolSell_sum hs (highest := highest) (prec := prec) (fun _ => hrx) hry hlow
    unfold poolSellOrders totalOffer
    cases hr : poolSellOrdersRaw sqrt p lowest highest prec with
    | done l =>
      have := h l hr
      simpa [LoopRes.orders, newPoolOrder, newBaseOrder, offerCoinAmount, sellCost, Function.comp_def] using this
    | panic => simpa [LoopRes.orders] using hry
    | outOfFuel => simpa [LoopRes.orders] using hry

/-- A basic pool with reserves 1000000 and 1000000 trades over the window [0.9, 1.1]. -/
example : totalOffer (poolBuyOrders approxSqrt 1 (newBasicPool 1000000 1000000 1) 900000000000000000 1100000000000000000 3)
      = 50286 ∧
    totalOffer (poolSellOrders approxSqrt 1 (newBasicPool 1000000 1000000 1) 900000000000000000 1100000000000000000 3)
      = 47432 := by decide +kernel

/-- C12: the generation loops terminate (the fuel of the model is never used up), and every generated order lies in the
price window, has at least the minimum amount 100, the buy prices do not rise and are at most the pool price, the sell
prices do not fall and are at least the pool price. -/
theorem C12_orders_in_window (sqrt : Int → Int) (hs : ∀ d, 0 ≤ d → 0 ≤ sqrt d) (poolId : Nat) (p : Pool)
    (lowest highest : Int) (prec : Nat) (hp : SoundPool p) (hlow : 0 < lowest) (hlh : lowest ≤ highest) :
    (poolBuyOrdersRaw sqrt p lowest highest prec ≠ .outOfFuel ∧ poolSellOrdersRaw sqrt p lowest highest prec ≠ .outOfFuel) ∧
    (∀ o ∈ poolOrders sqrt poolId p lowest highest prec, lowest ≤ o.price ∧ o.price ≤ highest ∧ 100 ≤ o.amount) ∧
    ((poolBuyOrders sqrt poolId p lowest highest prec).Pairwise (fun a b => b.price ≤ a.price) ∧
      ∀ o ∈ poolBuyOrders sqrt poolId p lowest highest prec, o.dir = .buy ∧ ∀ pp, p.price = some pp → o.price ≤ pp) ∧
    ((poolSellOrders sqrt poolId p lowest highest prec).Pairwise (fun a b => a.price ≤ b.price) ∧
      ∀ o ∈ poolSellOrders sqrt poolId p lowest highest prec, o.dir = .sell ∧ (∀ pp, p.price = some pp → pp ≤ o.price) ∧
        0 < quoteDown o.price o.amount) := by
  obtain ⟨b0, b1⟩ := poolBuy_spec hs (prec := prec) hp.rx_nonneg hp.ry_nonneg hlow hlh
  obtain ⟨s0, s1⟩ := poolSell_spec hs (prec := prec) (fun _ => hp.rx_nonneg) hp.ry_nonneg hlow hlh
    (fun pp h => sound_price hp h)
  have B : ∃ l : List (Int × Int), poolBuyOrders sqrt poolId p lowest highest prec = l.map (fun o => newPoolOrder poolId .buy o.1 o.2) ∧
      (∀ o ∈ l, lowest ≤ o.1 ∧ o.1 ≤ highest ∧ minCoinAmount ≤ o.2) ∧ l.Pairwise (fun a b => b.1 ≤ a.1) ∧
      (∀ pp, p.price = some pp → ∀ o ∈ l, o.1 ≤ pp) := by
    unfold poolBuyOrders
    cases hr : poolBuyOrdersRaw sqrt p lowest highest prec with
    | done l => exact ⟨l, rfl, (b1 l hr).2⟩
    | panic => exact ⟨[], rfl, by simp, by simp, by simp⟩
    | outOfFuel => exact ⟨[], rfl, by simp, by simp, by simp⟩
  have S : ∃ l : List (Int × Int), poolSellOrders sqrt poolId p lowest highest prec = l.map (fun o => newPoolOrder poolId .sell o.1 o.2) ∧
      (∀ o ∈ l, lowest ≤ o.1 ∧ o.1 ≤ highest ∧ minCoinAmount ≤ o.2 ∧ 0 < quoteFloor o.1 o.2) ∧
      l.Pairwise (fun a b => a.1 ≤ b.1) ∧ (∀ pp, p.price = some pp → ∀ o ∈ l, pp ≤ o.1) := by
    unfold poolSellOrders
    cases hr : poolSellOrdersRaw sqrt p lowest highest prec with
    | done l => exact ⟨l, rfl, s1 l hr⟩
    | panic => exact ⟨[], rfl, by simp, by simp, by simp⟩
    | outOfFuel => exact ⟨[], rfl, by simp, by simp, by simp⟩
  obtain ⟨lb, eb, wb, ob, pb⟩ := B
  obtain ⟨ls, es, ws, os, ps⟩ := S
  have hmin : minCoinAmount = 100 := rfl
  refine ⟨⟨b0, s0⟩, ?_, ⟨?_, ?_⟩, ⟨?_, ?_⟩⟩
  · intro o ho
    unfold poolOrders at ho
    rw [eb, es] at ho
    rcases List.mem_append.1 ho with ho | ho
    · obtain ⟨q, hq, rfl⟩ := List.mem_map.1 ho
      have := wb q hq
      exact ⟨this.1, this.2.1, by have := this.2.2; show 100 ≤ q.2; omega⟩
    · obtain ⟨q, hq, rfl⟩ := List.mem_map.1 ho
      have := ws q hq
      exact ⟨this.1, this.2.1, by have := this.2.2.1; show 100 ≤ q.2; omega⟩
  · rw [eb]; exact List.pairwise_map.2 ob
  · intro o ho
    rw [eb] at ho
    obtain ⟨q, hq, rfl⟩ := List.mem_map.1 ho
    exact ⟨rfl, fun pp hpp => pb pp hpp q hq⟩
  · rw [es]; exact List.pairwise_map.2 os
  · intro o ho
    rw [es] at ho
    obtain ⟨q, hq, rfl⟩ := List.mem_map.1 ho
    refine ⟨rfl, fun pp hpp => ps pp hpp q hq, ?_⟩
    obtain ⟨w1, w2, w3, w4⟩ := ws q hq
    have hn : 0 ≤ q.1 * q.2 := Int.mul_nonneg (by omega) (by omega)
    show 0 < quoteDown q.1 q.2
    rw [quoteDown_facts _ _ hn]; exact w4

/-- Every basic pool with non-negative reserves is sound, and so is this ranged pool made by `CreateRangedPool`. -/
example (rx ry ps : Int) (h : 0 ≤ rx) (h' : 0 ≤ ry) : SoundPool (newBasicPool rx ry ps) :=
  ⟨h, h', le_refl _, le_refl _, by simp [newBasicPool]⟩
example : ∃ p r, createRangedPool approxSqrt 1000000 1000000 500000000000000000 2000000000000000000 Dec.one = .ok p ∧
    SoundPool p ∧ p.range = some r ∧
    (poolOrders approxSqrt 1 p 900000000000000000 1100000000000000000 3).length = 141 := by
  refine ⟨{ rx := 1000000, ry := 1000000, ps := 10000000, range := some ⟨500000000000000000,
      2000000000000000000, 2414213562373095055785959, 2414213562373095053401775⟩ }, _,
    by decide +kernel, ⟨by decide, by decide, by decide, by decide, ?_⟩, rfl, by decide +kernel⟩
  intro r hr
  simp only [Option.some.injEq] at hr
  subst hr
  decide

/-- C13: for a pool with a price, `BuyAmountOver` does not grow and `SellAmountUnder` does not shrink when the price
rises; both are non-negative; buying `BuyAmountOver` at its price costs at most the quote reserve; `SellAmountUnder` is at
most the base reserve. -/
theorem C13_depth_monotone_bounded (p : Pool) (pp : Int) (hp : SoundPool p) (hpp : p.price = some pp) (a b : Int)
    (ha : 0 < a) (hab : a ≤ b) :
    ∃ ba bb sa sb, p.buyAmountOver a = some ba ∧ p.buyAmountOver b = some bb ∧
      p.sellAmountUnder a = some sa ∧ p.sellAmountUnder b = some sb ∧
      0 ≤ bb ∧ bb ≤ ba ∧ 0 ≤ sa ∧ sa ≤ sb ∧ sb ≤ p.ry ∧ quoteUp a ba ≤ p.rx := by
  obtain ⟨x, y, h1, h2, h3, h4⟩ := buy_anti hp hpp ha hab
  obtain ⟨z, w, g1, g2, g3, g4, g5⟩ := sell_mono hp hpp hab
  refine ⟨x, y, z, w, h1, h2, g1, g2, h3, h4, g3, g4, g5, ?_⟩
  obtain ⟨f1, f2⟩ := buyAmountOver_facts hp.rx_nonneg hp.ry_nonneg ha h1
  have hn : 0 ≤ a * x := Int.mul_nonneg ha.le f1
  rw [quoteUp_facts _ _ hn]
  exact quoteCeil_le hn f2

/-- C13: no pool both buys and sells at one price (for all pools and prices, without any assumption). -/
theorem C13_never_both_sides (p : Pool) (price x y : Int) (hx : p.buyAmountOver price = some x)
    (hy : p.sellAmountUnder price = some y) : x = 0 ∨ y = 0 := not_both hx hy

/-- C13: hence a priced pool is a monotone view, and so is the combined view of any pools with any order book: these are
the views for which C31 proves that the match-price search is correct. -/
theorem C13_pools_and_books_are_monotone (h : Heap) (os : List Nat) (hl : ∀ o ∈ os, Live (h o)) (ps : List Pool)
    (hps : ∀ p ∈ ps, SoundPool p ∧ ∃ pp, p.price = some pp) :
    MonotoneView (multipleOrderViews ((makeView h (newOrderBook h os)).toView :: ps.map Pool.toView)) := by
  obtain ⟨h1, h2⟩ := C31_views_are_monotone h os hl
  apply h2
  intro v hv
  rcases List.mem_cons.1 hv with rfl | hv
  · exact h1
  · obtain ⟨p, hp, rfl⟩ := List.mem_map.1 hv
    obtain ⟨hs, pp, hpp⟩ := hps p hp
    exact pool_view_monotone hs hpp

example : (newBasicPool 1000000 1000000 1).buyAmountOver 900000000000000000 = some 111111 ∧
    (newBasicPool 1000000 1000000 1).buyAmountOver 950000000000000000 = some 52631 ∧
    (newBasicPool 1000000 1000000 1).sellAmountUnder 1100000000000000000 = some 90909 ∧
    (newBasicPool 1000000 1000000 1).price = some Dec.one := by decide +kernel

/-- C14: let a basic pool trade against the buy orders it generated (the pool price being at or below the upper end of
the window), each filled in any part and at its limit or better.  Then the product of the reserves drops by at most
`Y'` per order: `X' * Y' ≥ X * Y - n * Y'`. -/
theorem C14_product_buys (sqrt : Int → Int) (p : Pool) (lowest highest pp : Int) (prec : Nat) (l : List (Int × Int))
    (X' Y' : Int) (hr : p.range = none) (hrx : 0 ≤ p.rx) (hry : 0 ≤ p.ry) (hlow : 0 < lowest)
    (hpp : p.price = some pp) (hle : pp ≤ highest) (hl : poolBuyOrdersRaw sqrt p lowest highest prec = .done l)
    (ht : BoughtFrom l p.rx p.ry X' Y') : p.rx * p.ry - (l.length : Int) * Y' ≤ X' * Y' := by
  have hc : BuyChain p.rx p.ry l := by
    unfold poolBuyOrdersRaw at hl
    rw [hpp] at hl
    simp only at hl
    split at hl
    · simp only [LoopRes.done.injEq] at hl; subst hl; trivial
    · have hf : buyFirst sqrt p pp highest = some (p, []) := by unfold buyFirst; rw [if_neg (by omega)]
      rw [hf] at hl
      simp only [hpp] at hl
      split at hl
      · cases hl
      · obtain ⟨l', e, c⟩ := buyLoop_chain prec hlow _ p _ [] hr hrx hry l hl
        rw [e]; simpa using c
  exact (bought_product ht p.rx p.ry hc (le_refl _) (le_refl _) hry).1

/-- C14: the same for the sell orders of the pool: `X' * Y' ≥ X * Y - n * Y`. -/
theorem C14_product_sells (sqrt : Int → Int) (p : Pool) (lowest highest pp : Int) (prec : Nat) (l : List (Int × Int))
    (X' Y' : Int) (hr : p.range = none) (hrx : 0 ≤ p.rx) (hry : 0 ≤ p.ry)
    (hpp : p.price = some pp) (hle : lowest ≤ pp) (hl : poolSellOrdersRaw sqrt p lowest highest prec = .done l)
    (ht : SoldFrom l p.rx p.ry X' Y') : p.rx * p.ry - (l.length : Int) * p.ry ≤ X' * Y' := by
  have hc : SellChain p.rx p.ry l := by
    unfold poolSellOrdersRaw at hl
    rw [hpp] at hl
    simp only at hl
    split at hl
    · simp only [LoopRes.done.injEq] at hl; subst hl; trivial
    · have hf : sellFirst sqrt p pp lowest = some (p, []) := by unfold sellFirst; rw [if_neg (by omega)]
      rw [hf] at hl
      simp only [hpp] at hl
      split at hl
      · cases hl
      · obtain ⟨l', e, c⟩ := sellLoop_chain prec _ p _ [] hr hrx hry l hl
        rw [e]; simpa using c
  exact (sold_product ht p.rx p.rx p.ry hc (le_refl _) (le_refl _) (le_refl _) hry).1

/-- A pool with reserves (10000, 10000) generates two sell orders; the first is traded in full, the second in part, and
the product rises from 100000000 to 100060839. -/
example : poolSellOrdersRaw approxSqrt (newBasicPool 10000 10000 1) 800000000000000000 1400000000000000000 1
      = .done [(1100000000000000000, 909), (1300000000000000000, 630)] ∧
    SoldFrom [(1100000000000000000, 909), (1300000000000000000, 630)] 10000 10000 11129 8991 := by
  refine ⟨by decide +kernel, ?_⟩
  have h2 : SoldFrom [(1300000000000000000, 630)] 10999 9091 11129 8991 :=
    .cons (b := 100) (c := 130) (by decide) (by decide) (by decide) .nil
  exact .cons (b := 909) (c := 999) (by decide) (by decide) (by decide) h2

/-- C14: one completely filled order: the product drops by less than the new base reserve. -/
theorem C14_single_order (p : Pool) (price amt : Int) (hr : p.range = none) (hrx : 0 ≤ p.rx) (hry : 0 ≤ p.ry)
    (hprice : 0 < price) (hamt : 0 < amt) :
    (p.buyAmountOver price = some amt →
      p.rx * p.ry - (p.ry + amt) < (p.rx - quoteUp price amt) * (p.ry + amt)) ∧
    (p.sellAmountUnder price = some amt →
      p.rx * p.ry - (p.ry - amt) ≤ (p.rx + quoteDown price amt) * (p.ry - amt)) := by
  have hn : 0 ≤ price * amt := Int.mul_nonneg hprice.le hamt.le
  rw [quoteUp_facts _ _ hn, quoteDown_facts _ _ hn]
  exact ⟨fun h => product_buy hr hrx hry hprice h hamt, fun h => product_sell hr hrx hry h hamt⟩

/-- C14: exact non-decrease is false on both sides. -/
theorem C14_exact_product_fails :
    (∃ p : Pool, ∃ price amt, p.range = none ∧ p.buyAmountOver price = some amt ∧
      (p.rx - quoteUp price amt) * (p.ry + amt) < p.rx * p.ry) ∧
    (∃ p : Pool, ∃ price amt, p.range = none ∧ p.sellAmountUnder price = some amt ∧
      (p.rx + quoteDown price amt) * (p.ry - amt) < p.rx * p.ry) :=
  ⟨⟨newBasicPool 212 206 1, 110100000000000000, 1719, rfl, by decide +kernel, by decide +kernel⟩,
   ⟨newBasicPool 214 213 1, 4977400000000000000, 170, rfl, by decide +kernel, by decide +kernel⟩⟩

/-- C15: the price gap ratio always lies between 0.00003 and 0.005. -/
theorem C15_gap_bounded (poolPrice current : Int) (h : 0 ≤ poolPrice) :
    30000000000000 ≤ poolOrderPriceGapRatio poolPrice current ∧
    poolOrderPriceGapRatio poolPrice current ≤ 5000000000000000 := gap_bounds h

/-- C15: it grows with the relative distance `|current - poolPrice| / poolPrice`, hence depends on nothing else. -/
theorem C15_gap_monotone (p c q d : Int) (hp : 0 < p) (hq : 0 < q)
    (h : |c - p| * q ≤ |d - q| * p) : poolOrderPriceGapRatio p c ≤ poolOrderPriceGapRatio q d := by
  apply gap_mono hp hq
  rw [Int.abs_eq_natAbs, Int.abs_eq_natAbs] at h
  exact h

example : poolOrderPriceGapRatio Dec.one Dec.one = 30000000000000 ∧
    poolOrderPriceGapRatio Dec.one 1010000000000000000 = 100000000000000 ∧
    poolOrderPriceGapRatio Dec.one 3000000000000000000 = 5000000000000000 := by decide +kernel

theorem gapOf_second {x : Int} (h1 : t1 ≤ x) (h2 : x ≤ t2) : gapOf x = Dec.mul a2 x + b2 := by
  unfold gapOf
  rcases eq_or_lt_of_le h1 with e | e
  · subst e; decide
  · rw [if_neg (by omega), if_pos h2]

theorem gapOf_third {x : Int} (h1 : t2 ≤ x) (h2 : x ≤ t3) : gapOf x = Dec.mul a3 x := by
  unfold gapOf
  have : t1 < t2 := by decide
  rcases eq_or_lt_of_le h1 with e | e
  · subst e; decide
  · rw [if_neg (by omega), if_neg (by omega), if_pos h2]

theorem gapOf_fourth {x : Int} (h1 : t3 ≤ x) : gapOf x = b4 := by
  unfold gapOf
  have : t1 < t2 := by decide
  have : t2 < t3 := by decide
  rcases eq_or_lt_of_le h1 with e | e
  · subst e; decide
  · rw [if_neg (by omega), if_neg (by omega), if_neg (by omega)]

/-- C15: with `d = |current - poolPrice|` and `r = d / poolPrice`, the gap ratio is, to within `10^-18`:
`0.007 r + 0.00003` for `r ≤ 1%`, `0.09 r - 0.0008` for `1% ≤ r ≤ 2%`, `0.05 r` for `2% ≤ r ≤ 10%`, and exactly `0.005`
from `10%` on.  (Written without divisions.) -/
theorem C15_gap_shape (p c : Int) (hp : 0 < p) :
    (100 * |c - p| ≤ p →
      |1000 * p * (poolOrderPriceGapRatio p c - 30000000000000) - 7 * |c - p| * 10 ^ 18| ≤ 1000 * p) ∧
    (p ≤ 100 * |c - p| → 100 * |c - p| ≤ 2 * p →
      |100 * p * (poolOrderPriceGapRatio p c + 800000000000000) - 9 * |c - p| * 10 ^ 18| ≤ 100 * p) ∧
    (2 * p ≤ 100 * |c - p| → 100 * |c - p| ≤ 10 * p →
      |100 * p * poolOrderPriceGapRatio p c - 5 * |c - p| * 10 ^ 18| ≤ 100 * p) ∧
    (10 * p ≤ 100 * |c - p| → poolOrderPriceGapRatio p c = 5000000000000000) := by
  have ho := Dec.one_pos'
  have e1 : poolOrderPriceGapRatio p c = gapOf (Dec.quo ((c - (if p = 0 then 1 else p)).natAbs : Int) (if p = 0 then 1 else p)) := rfl
  rw [if_neg (by omega)] at e1
  have ed : ((c - p).natAbs : Int) = |c - p| := Int.natCast_natAbs _
  rw [ed] at e1
  have hd : 0 ≤ |c - p| := abs_nonneg _
  generalize |c - p| = d at *
  have e18 : (10 : Int) ^ 18 = Dec.one := by decide
  rw [e18, e1]
  have hdn : 0 ≤ d * Dec.one * Dec.one := Int.mul_nonneg (Int.mul_nonneg hd ho.le) ho.le
  have hx : Dec.quo d p = Dec.chopRound (d * Dec.one * Dec.one / p) := by
    unfold Dec.quo; rw [Int.tdiv_eq_ediv_of_nonneg hdn]
  have hqn : 0 ≤ d * Dec.one * Dec.one / p := Int.ediv_nonneg hdn hp.le
  -- monotone comparison with the thresholds
  have cmp1 : ∀ t : Int, 0 ≤ t → d * Dec.one ≤ t * p → Dec.quo d p ≤ t := by
    intro t ht h
    rw [hx, ← @Dec.chop_int t]
    refine Dec.chop_mono_nn hqn ?_
    calc d * Dec.one * Dec.one / p ≤ t * Dec.one * p / p := Int.ediv_le_ediv hp (by nlinarith)
      _ = t * Dec.one := Int.mul_ediv_cancel _ (ne_of_gt hp)
  have cmp2 : ∀ t : Int, 0 ≤ t → t * p ≤ d * Dec.one → t ≤ Dec.quo d p := by
    intro t ht h
    rw [hx, ← @Dec.chop_int t]
    refine Dec.chop_mono_nn (Int.mul_nonneg ht ho.le) ?_
    calc t * Dec.one = t * Dec.one * p / p := (Int.mul_ediv_cancel _ (ne_of_gt hp)).symm
      _ ≤ d * Dec.one * Dec.one / p := Int.ediv_le_ediv hp (by nlinarith)
  have hxn : 0 ≤ Dec.quo d p := cmp2 0 le_rfl (by have := Int.mul_nonneg hd ho.le; omega)
  -- error of the quotient: 2 one |x p - d one| ≤ p (one + 2)
  have err : 2 * Dec.one * (Dec.quo d p * p - d * Dec.one) ≤ p * (Dec.one + 2) ∧
      -(p * (Dec.one + 2)) ≤ 2 * Dec.one * (Dec.quo d p * p - d * Dec.one) := by
    rw [hx]
    obtain ⟨k1, k2⟩ := Dec.chop_bounds hqn
    have k3 : d * Dec.one * Dec.one / p * p ≤ d * Dec.one * Dec.one := Int.ediv_mul_le _ (ne_of_gt hp)
    have k4 : d * Dec.one * Dec.one < (d * Dec.one * Dec.one / p + 1) * p := Int.lt_ediv_add_one_mul_self _ hp
    generalize Dec.chopRound (d * Dec.one * Dec.one / p) = x at *
    generalize d * Dec.one * Dec.one / p = q at *
    have k5 : 2 * (x * Dec.one) * p ≤ (2 * q + Dec.one) * p := Int.mul_le_mul_of_nonneg_right k2 hp.le
    have k6 : (2 * q - Dec.one) * p ≤ 2 * (x * Dec.one) * p := Int.mul_le_mul_of_nonneg_right k1 hp.le
    have r1 : 2 * Dec.one * (x * p - d * Dec.one) = 2 * (x * Dec.one) * p - 2 * (d * Dec.one * Dec.one) := by ring
    have r2 : (2 * q + Dec.one) * p = 2 * (q * p) + Dec.one * p := by ring
    have r3 : (2 * q - Dec.one) * p = 2 * (q * p) - Dec.one * p := by ring
    have r4 : (q + 1) * p = q * p + p := by ring
    have r5 : p * (Dec.one + 2) = Dec.one * p + 2 * p := by ring
    omega
  generalize Dec.quo d p = x at *
  -- error of a·x, in the form used below
  have lin : ∀ a k m : Int, 0 ≤ a → 0 < m → a * m = k * Dec.one → 2 * k ≤ m →
      |m * p * Dec.mul a x - k * d * Dec.one| ≤ m * p := by
    intro a k m ha hm hak hkm
    have hk : 0 ≤ k := by
      by_contra hc
      have := Int.mul_nonneg ha hm.le
      nlinarith
    obtain ⟨k1, k2⟩ := Dec.chop_bounds (Int.mul_nonneg ha hxn)
    have hg : Dec.mul a x = Dec.chopRound (a * x) := rfl
    rw [← hg] at k1 k2
    generalize Dec.mul a x = g at *
    -- multiply by m * p
    have l1 : 2 * (g * Dec.one) * (m * p) ≤ (2 * (a * x) + Dec.one) * (m * p) :=
      Int.mul_le_mul_of_nonneg_right k2 (Int.mul_nonneg hm.le hp.le)
    have l2 : (2 * (a * x) - Dec.one) * (m * p) ≤ 2 * (g * Dec.one) * (m * p) :=
      Int.mul_le_mul_of_nonneg_right k1 (Int.mul_nonneg hm.le hp.le)
    have r1 : (2 * (a * x) + Dec.one) * (m * p) = 2 * Dec.one * (k * (x * p)) + Dec.one * (m * p) := by
      have : a * x * (m * p) = (a * m) * (x * p) := by ring
      have h2 : (2 * (a * x) + Dec.one) * (m * p) = 2 * (a * x * (m * p)) + Dec.one * (m * p) := by ring
      rw [h2, this, hak]; ring
    have r2 : (2 * (a * x) - Dec.one) * (m * p) = 2 * Dec.one * (k * (x * p)) - Dec.one * (m * p) := by
      have : a * x * (m * p) = (a * m) * (x * p) := by ring
      have h2 : (2 * (a * x) - Dec.one) * (m * p) = 2 * (a * x * (m * p)) - Dec.one * (m * p) := by ring
      rw [h2, this, hak]; ring
    have r3 : 2 * (g * Dec.one) * (m * p) = 2 * Dec.one * (m * p * g) := by ring
    have l3 : k * (2 * Dec.one * (x * p - d * Dec.one)) ≤ k * (p * (Dec.one + 2)) := Int.mul_le_mul_of_nonneg_left err.1 hk
    have l4 : k * (-(p * (Dec.one + 2))) ≤ k * (2 * Dec.one * (x * p - d * Dec.one)) := Int.mul_le_mul_of_nonneg_left err.2 hk
    have r4 : k * (2 * Dec.one * (x * p - d * Dec.one)) = 2 * Dec.one * (k * (x * p)) - 2 * Dec.one * (k * d * Dec.one) := by ring
    have r5 : k * (-(p * (Dec.one + 2))) = -(k * (p * (Dec.one + 2))) := by ring
    have l5 : k * (p * (Dec.one + 2)) ≤ Dec.one * (m * p) := by
      have h1 : 2 * k * (p * (Dec.one + 2)) ≤ m * (p * (Dec.one + 2)) :=
        Int.mul_le_mul_of_nonneg_right hkm (Int.mul_nonneg hp.le (by omega))
      have h2 : m * (p * (Dec.one + 2)) ≤ m * (p * (2 * Dec.one)) :=
        Int.mul_le_mul_of_nonneg_left (Int.mul_le_mul_of_nonneg_left (by decide) hp.le) hm.le
      have h3 : m * (p * (2 * Dec.one)) = 2 * (Dec.one * (m * p)) := by ring
      have h4 : 2 * k * (p * (Dec.one + 2)) = 2 * (k * (p * (Dec.one + 2))) := by ring
      omega
    have f1 : 2 * Dec.one * (m * p * g - k * d * Dec.one) ≤ 2 * Dec.one * (m * p) := by
      have : 2 * Dec.one * (m * p * g - k * d * Dec.one) = 2 * Dec.one * (m * p * g) - 2 * Dec.one * (k * d * Dec.one) := by ring
      have h6 : 2 * Dec.one * (m * p) = Dec.one * (m * p) + Dec.one * (m * p) := by ring
      omega
    have f2 : 2 * Dec.one * (-(m * p)) ≤ 2 * Dec.one * (m * p * g - k * d * Dec.one) := by
      have : 2 * Dec.one * (m * p * g - k * d * Dec.one) = 2 * Dec.one * (m * p * g) - 2 * Dec.one * (k * d * Dec.one) := by ring
      have h6 : 2 * Dec.one * (-(m * p)) = -(Dec.one * (m * p)) - Dec.one * (m * p) := by ring
      omega
    have h2o : 0 < 2 * Dec.one := by omega
    exact abs_le.2 ⟨le_of_mul_le_mul_left f2 h2o, le_of_mul_le_mul_left f1 h2o⟩
  have n1 : t1 * 100 = Dec.one := by decide
  have n2 : t2 * 100 = 2 * Dec.one := by decide
  have n3 : t3 * 100 = 10 * Dec.one := by decide
  refine ⟨fun h => ?_, fun h h' => ?_, fun h h' => ?_, fun h => ?_⟩
  · have hx1 := cmp1 t1 (by decide) (by unfold t1 Dec.one at *; omega)
    have e : gapOf x = Dec.mul a1 x + b1 := by unfold gapOf; rw [if_pos hx1]
    rw [e]
    have r : Dec.mul a1 x + b1 - 30000000000000 = Dec.mul a1 x := by unfold b1; ring
    rw [r]
    exact lin a1 7 1000 (by decide) (by decide) (by decide) (by decide)
  · have hx1 := cmp2 t1 (by decide) (by unfold t1 Dec.one at *; omega)
    have hx2 := cmp1 t2 (by decide) (by unfold t2 Dec.one at *; omega)
    rw [gapOf_second hx1 hx2]
    have r : Dec.mul a2 x + b2 + 800000000000000 = Dec.mul a2 x := by unfold b2; ring
    rw [r]
    exact lin a2 9 100 (by decide) (by decide) (by decide) (by decide)
  · have hx1 := cmp2 t2 (by decide) (by unfold t2 Dec.one at *; omega)
    have hx2 := cmp1 t3 (by decide) (by unfold t3 Dec.one at *; omega)
    rw [gapOf_third hx1 hx2]
    exact lin a3 5 100 (by decide) (by decide) (by decide) (by decide)
  · have hx1 := cmp2 t3 (by decide) (by unfold t3 Dec.one at *; omega)
    rw [gapOf_fourth hx1]
    rfl

/-- Pool price 3, current price 3.04: the relative distance is 1.333…%, the ratio 0.0004. -/
example : poolOrderPriceGapRatio 3000000000000000000 3040000000000000000 = 400000000000000 := by decide +kernel

/-- C51: the initial supply of a pool is a power of ten whose square is above `x * y` and at most `1000 * x * y`. -/
theorem C51_initial_supply (x y : Int) (hx : 0 < x) (hy : 0 < y) :
    ∃ c : Nat, initialPoolCoinSupply x y = 10 ^ c ∧ x * y < (10 ^ c) ^ 2 ∧ (10 ^ c) ^ 2 ≤ 1000 * (x * y) := by
  obtain ⟨a1, a2, a3⟩ := decLen_spec x.natAbs (by omega)
  obtain ⟨b1, b2, b3⟩ := decLen_spec y.natAbs (by omega)
  have key : ∀ m n a b : Nat, 1 ≤ a → 1 ≤ b → 10 ^ (a - 1) ≤ m → m < 10 ^ a → 10 ^ (b - 1) ≤ n → n < 10 ^ b →
      m * n < (10 ^ (((a - 1 + 1) + (b - 1 + 1) + 1) / 2)) ^ 2 ∧
      (10 ^ (((a - 1 + 1) + (b - 1 + 1) + 1) / 2)) ^ 2 ≤ 1000 * (m * n) := by
    intro m n a b ha hb h1 h2 h3 h4
    obtain ⟨a, rfl⟩ : ∃ k, a = k + 1 := ⟨a - 1, by omega⟩
    obtain ⟨b, rfl⟩ : ∃ k, b = k + 1 := ⟨b - 1, by omega⟩
    simp only [Nat.add_sub_cancel] at *
    rw [← pow_mul]
    constructor
    · calc m * n < 10 ^ (a + 1) * 10 ^ (b + 1) := Nat.mul_lt_mul'' h2 h4
        _ = 10 ^ (a + 1 + (b + 1)) := by rw [← pow_add]
        _ ≤ 10 ^ ((a + 1 + (b + 1) + 1) / 2 * 2) := Nat.pow_le_pow_right (by decide) (by omega)
    · calc 10 ^ ((a + 1 + (b + 1) + 1) / 2 * 2) ≤ 10 ^ (3 + (a + b)) := Nat.pow_le_pow_right (by decide) (by omega)
        _ = 1000 * (10 ^ a * 10 ^ b) := by rw [pow_add, pow_add]; norm_num
        _ ≤ 1000 * (m * n) := Nat.mul_le_mul_left _ (Nat.mul_le_mul h1 h3)
  obtain ⟨k1, k2⟩ := key _ _ _ _ a1 b1 a2 a3 b2 b3
  refine ⟨_, rfl, ?_, ?_⟩
  · have hc := Int.ofNat_lt.2 k1
    push_cast at hc
    rw [abs_of_pos hx, abs_of_pos hy] at hc
    exact hc
  · have hc := Int.ofNat_le.2 k2
    push_cast at hc
    rw [abs_of_pos hx, abs_of_pos hy] at hc
    exact hc

example : initialPoolCoinSupply 1000000 1000000 = 10000000 ∧ initialPoolCoinSupply 9 99 = 100 := by decide +kernel

/-- C55: a basic pool that is not depleted has a price; so has a ranged pool with a positive base reserve. -/
theorem C55_price_defined_partial (p : Pool) (hp : SoundPool p) (hd : p.isDepleted = false) (h : p.range = none ∨ 0 < p.ry) :
    ∃ pp, p.price = some pp ∧ 0 ≤ pp := by
  have main : ∃ pp, p.price = some pp := by
    unfold Pool.price
    unfold Pool.isDepleted at hd
    have ho := Dec.one_pos'
    cases hr : p.range with
    | none =>
      rw [hr] at hd
      simp only [Bool.or_eq_false_iff, beq_eq_false_iff_ne] at hd
      simp only
      rw [if_neg (by omega)]
      unfold quo? Dec.ofInt
      rw [if_neg (by
        have : 0 < p.ry := by have := hp.ry_nonneg; omega
        have := Int.mul_pos this ho
        omega)]
      exact ⟨_, rfl⟩
    | some r =>
      have hy : 0 < p.ry := by rcases h with h | h; rw [hr] at h; cases h; exact h
      simp only
      rw [if_neg (by omega)]
      unfold quo? Pool.yComp Dec.ofInt
      have := Int.mul_pos hy ho
      have := hp.transY_nonneg
      rw [if_neg (by omega)]
      exact ⟨_, rfl⟩
  obtain ⟨pp, h⟩ := main
  exact ⟨pp, h, sound_price hp h⟩

/-- C55 is false for ranged pools: with valid price bounds, a ranged pool holding only 7 units of quote coin is not
depleted and yet asking for its price panics (the composed base amount rounds to zero).  The price is queried for every
non-depleted pool of a pair without a last price when the block ends. -/
theorem C55_ranged_price_panics :
    ∃ p : Pool, newRangedPool approxSqrt 7 0 1 15286000000000000000000000000000000 21531000000000000000000000000000000000
        = some p ∧ p.isDepleted = false ∧ p.price = none ∧
      validateRangedPoolParams 15286000000000000000000000000000000 21531000000000000000000000000000000000
        15286000000000000000000000000000000 = true := by
  refine ⟨_, (Option.some_get (by decide +kernel)).symm, by decide +kernel, by decide +kernel, by decide +kernel⟩

/-- C56: the amounts accepted for a ranged pool are at most the offered ones not only for the library's square root (see
`C56_ranged_accept_at_most_offered` in `Props/Sqrt`), but for every routine that orders
the three prices: `sqrt min < sqrt initial`, and the inverse root of the maximum is positive and below that of the
initial price. -/
theorem C56_accept_any_root (sqrt : Int → Int) (x y minPrice maxPrice initialPrice ax ay : Int)
    (hx : 0 ≤ x) (hy : 0 ≤ y) (h0 : 0 ≤ sqrt minPrice) (h1 : sqrt minPrice < sqrt initialPrice)
    (h2 : Dec.quo Dec.one (sqrt maxPrice) < Dec.quo Dec.one (sqrt initialPrice)) (h3 : 1 ≤ Dec.quo Dec.one (sqrt maxPrice))
    (h : rangedAccept sqrt x y minPrice maxPrice initialPrice = some (ax, ay)) :
    0 ≤ ax ∧ ax ≤ x ∧ 0 ≤ ay ∧ ay ≤ y := rangedAccept_le hx hy h0 h1 h2 h3 h

example : rangedAccept approxSqrt 1000000 700000 500000000000000000 2000000000000000000 Dec.one = some (700000, 700000) ∧
    0 ≤ approxSqrt 500000000000000000 ∧ approxSqrt 500000000000000000 < approxSqrt Dec.one ∧
    Dec.quo Dec.one (approxSqrt 2000000000000000000) < Dec.quo Dec.one (approxSqrt Dec.one) ∧
    1 ≤ Dec.quo Dec.one (approxSqrt 2000000000000000000) := by decide +kernel

end Verif.Props

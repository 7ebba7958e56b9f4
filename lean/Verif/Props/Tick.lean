import Verif.Proofs.TickIndex
import Mathlib.Data.Nat.Digits.Lemmas
/-!
# Properties C01-C05: price ticks

`IsTick`, `IsFloorTick`, `IsCeilTick`, `IsNextTick`, `IsPrevTick` are in `Verif.Spec.Tick` and do not mention the code.
-/
namespace Verif.Props
open Verif Verif.Amm Verif.Spec

/-- **C01** For every positive price and every precision, `PriceToDownTick` does not panic and returns the greatest
tick not above the price. -/
theorem C01_down_tick_greatest (price : Int) (prec : Nat) (h : 0 < price) :
    priceToDownTick? price prec = some (priceToDownTick price prec) ∧
    IsFloorTick prec price (priceToDownTick price prec) := by
  refine ⟨by unfold priceToDownTick?; rw [if_neg (by omega)], ?_⟩
  exact ⟨isTick_down h prec, down_le h prec, fun u hu hup => down_greatest h hu hup⟩

/-- **C01** `PriceToDownTick` leaves exactly the ticks unchanged. -/
theorem C01_down_tick_fixes_ticks (price : Int) (prec : Nat) (h : 0 < price) :
    priceToDownTick price prec = price ↔ IsTick prec price := (isTick_iff h).symm

/-- **C01** `PriceToDownTick` is monotone. -/
theorem C01_down_tick_monotone (p q : Int) (prec : Nat) (h : 0 < p) (hpq : p ≤ q) :
    priceToDownTick p prec ≤ priceToDownTick q prec :=
  down_greatest (by omega) (isTick_down h prec) (le_trans (down_le h prec) hpq)

/-- **C01** On zero the function panics (`none`). -/
theorem C01_down_tick_zero_panics (prec : Nat) : priceToDownTick? 0 prec = none := rfl

/-- Non-vacuity: 1234.56789 at precision 3 goes down to 1234; 0.000999999 stays in its decade. -/
example : (0:Int) < 1234567890000000000000 ∧
    priceToDownTick 1234567890000000000000 3 = 1234000000000000000000 ∧
    priceToDownTick 999999000000 3 = 999900000000 := by decide +kernel

/-- **C02** For every positive price and precision, `PriceToUpTick` returns the least tick not below the price. -/
theorem C02_up_tick_least (price : Int) (prec : Nat) (h : 0 < price) :
    priceToUpTick? price prec = some (priceToUpTick price prec) ∧
    IsCeilTick prec price (priceToUpTick price prec) :=
  ⟨by unfold priceToUpTick?; rw [if_neg (by omega)], isCeil_up h prec⟩

/-- Non-vacuity: a carry over a power of ten. -/
example : (0:Int) < 999950000000000000 ∧ priceToUpTick 999950000000000000 3 = 1000000000000000000 := by
  decide +kernel

/-- **C03** `UpTick` is the least tick strictly above any positive price. -/
theorem C03_up_tick_next (price : Int) (prec : Nat) (h : 0 < price) :
    IsNextTick prec price (upTick price prec) := isNext_up h prec

/-- **C03** `DownTick` is the greatest tick strictly below, for every price above one unit `10^-18`. -/
theorem C03_down_tick_prev (price : Int) (prec : Nat) (h : 1 < price) :
    IsPrevTick prec price (downTick price prec) := isPrev_down h prec

/-- **C03** At the single excluded price, `10^-18`, there is no tick below and `DownTick` returns zero. -/
theorem C03_down_tick_lowest_unit (prec : Nat) :
    downTick 1 prec = 0 ∧ ¬ ∃ t, IsPrevTick prec 1 t := by
  have hc : char 1 = 0 := by decide
  have hp : priceToDownTick 1 prec = 1 := down_of_tick ⟨1, 0, by omega, Nat.one_lt_pow (by omega) (by omega), rfl⟩
  refine ⟨?_, ?_⟩
  · have hi : isPow10 1 = true := by decide
    unfold downTick
    simp only [hp, hc, hi, if_true, pow10]
    have : ((0:Nat) - (prec:Int) - 1).toNat = 0 := by omega
    rw [this]; rfl
  · rintro ⟨t, ht, hlt, _⟩
    have := isTick_pos ht
    omega

/-- **C03** On ticks, `DownTick` undoes `UpTick`. -/
theorem C03_down_up (t : Int) (prec : Nat) (ht : IsTick prec t) : downTick (upTick t prec) prec = t := by
  have h0 := isTick_pos ht
  have hn := isNext_up h0 prec
  exact prev_unique (isPrev_down (by have := hn.2.1; omega) prec) (isPrev_of_next ht hn)

/-- **C03** On ticks above one unit, `UpTick` undoes `DownTick`. -/
theorem C03_up_down (t : Int) (prec : Nat) (ht : IsTick prec t) (h : 1 < t) : upTick (downTick t prec) prec = t := by
  have hp := isPrev_down h prec
  exact next_unique (isNext_up (isTick_pos hp.1) prec) (isNext_of_prev ht hp)

/-- **C03** The reported tick gap is the distance from the down-tick to the next tick. -/
theorem C03_tick_gap (price : Int) (prec : Nat) (h : 0 < price) :
    IsNextTick prec (priceToDownTick price prec) (priceToDownTick price prec + tickGap price prec) := by
  have := isNext_up (down_pos h prec) prec
  rw [upTick_eq (down_pos h prec), down_idem h] at this
  simpa only [tickGap, pow10, gap_eq] using this

/-- Non-vacuity: stepping over a power of ten in both directions. -/
example : IsTick 3 1000000000000000000 ∧ downTick 1000000000000000000 3 = 999900000000000000 ∧
    upTick 999900000000000000 3 = 1000000000000000000 :=
  ⟨⟨1, 18, by decide, by decide, by decide⟩, by decide +kernel, by decide +kernel⟩

/-- **C04** Index and price are mutually inverse, on ticks at least `LowestTick` and indices at least 0. -/
theorem C04_index_roundtrip (prec : Nat) :
    (∀ i : Int, 0 ≤ i → lowestTick prec ≤ tickFromIndex i prec ∧ IsTick prec (tickFromIndex i prec) ∧
        tickToIndex (tickFromIndex i prec) prec = i) ∧
    (∀ t : Int, IsTick prec t → lowestTick prec ≤ t →
        0 ≤ tickToIndex t prec ∧ tickFromIndex (tickToIndex t prec) prec = t) :=
  ⟨fun _ h => ⟨(tickFromIndex_facts h prec).1, (tickFromIndex_facts h prec).2.1, index_fromIndex h prec⟩,
   fun _ ht h => ⟨tickToIndex_nonneg h, fromIndex_index ht h⟩⟩

/-- **C04** Index order is price order. -/
theorem C04_index_order (prec : Nat) (t u : Int) (ht : IsTick prec t) (hu : IsTick prec u)
    (h : lowestTick prec ≤ t) (h' : lowestTick prec ≤ u) :
    (tickToIndex t prec < tickToIndex u prec ↔ t < u) ∧ tickToIndex (lowestTick prec) prec = 0 :=
  ⟨index_lt_iff ht hu h h', index_lowest prec⟩

/-- **C04** Adjacent indices are adjacent ticks. -/
theorem C04_index_adjacent (prec : Nat) (i : Int) (h : 0 ≤ i) :
    IsNextTick prec (tickFromIndex i prec) (tickFromIndex (i + 1) prec) ∧
    upTick (tickFromIndex i prec) prec = tickFromIndex (i + 1) prec := by
  have h1 := isNext_fromIndex h prec
  exact ⟨h1, next_unique (isNext_up (isTick_pos (tickFromIndex_facts h prec).2.1) prec) h1⟩

/-- Non-vacuity: the index of 1.000 at precision 3 is 15 decades above the lowest tick. -/
example : tickToIndex 1000000000000000000 3 = 135000 ∧ lowestTick 3 ≤ 1000000000000000000 := by decide +kernel

/-- **C05** For a price at least `LowestTick`: a tick is returned unchanged; otherwise the result is the tick just
below or just above the price, namely the one with the even index. -/
theorem C05_round_price (price : Int) (prec : Nat) (h : lowestTick prec ≤ price) :
    (IsTick prec price → roundPrice price prec = price) ∧
    (¬ IsTick prec price →
      (IsFloorTick prec price (roundPrice price prec) ∨ IsCeilTick prec price (roundPrice price prec)) ∧
      tickToIndex (roundPrice price prec) prec % 2 = 0) := by
  have h0 : 0 < price := lt_of_lt_of_le (lowestTick_pos prec) h
  refine ⟨fun ht => by unfold roundPrice; simp only [down_of_tick ht, if_true], fun hn => ?_⟩
  have hne : price ≠ priceToDownTick price prec := fun e => hn ((isTick_iff h0).2 e.symm)
  have hlow := lowest_le_down h
  have hdt := isTick_down h0 prec
  have hi := tickToIndex_nonneg hlow
  have hfl : IsFloorTick prec price (priceToDownTick price prec) :=
    ⟨hdt, down_le h0 prec, fun u hu hup => down_greatest h0 hu hup⟩
  have hce : IsCeilTick prec price (upTick (priceToDownTick price prec) prec) := by
    have hn2 := isNext_up (down_pos h0 prec) prec
    refine ⟨hn2.1, ?_, fun u hu hup => hn2.2.2 u hu (by have := down_le h0 prec; omega)⟩
    rw [upTick_eq (down_pos h0 prec), down_idem h0, gapExp_down h0]
    exact le_of_lt (lt_down_add h0 prec)
  unfold roundPrice
  simp only [if_neg hne, roundTickIndex]
  rw [Int.tdiv_eq_ediv_of_nonneg (by omega)]
  rcases Int.emod_two_eq_zero_or_one (tickToIndex (priceToDownTick price prec) prec) with hm | hm
  · have e : (tickToIndex (priceToDownTick price prec) prec + 1) / 2 * 2 = tickToIndex (priceToDownTick price prec) prec := by
      omega
    rw [e, fromIndex_index hdt hlow]
    exact ⟨Or.inl hfl, hm⟩
  · have e : (tickToIndex (priceToDownTick price prec) prec + 1) / 2 * 2
        = tickToIndex (upTick (priceToDownTick price prec) prec) prec := by
      rw [index_upTick hdt hlow]; omega
    rw [e, fromIndex_index hce.1 (by have := hce.2.1; omega)]
    refine ⟨Or.inr hce, ?_⟩
    rw [index_upTick hdt hlow]; omega

/-- Non-vacuity: 1.00005 rounds down to the even-index tick 1.000, 1.00105 up to 1.002. -/
example : lowestTick 3 ≤ 1000050000000000000 ∧ roundPrice 1000050000000000000 3 = 1000000000000000000 ∧
    roundPrice 1001050000000000000 3 = 1002000000000000000 := by decide +kernel

/-- **C04** `HighestTick` is the greatest tick that fits in 300 bits; `LowestTick` is the least number with `prec + 1`
decimal digits: all ticks from there on have an index, and no smaller number has `prec + 1` digits. -/
theorem C04_extreme_ticks (prec : Nat) :
    IsFloorTick prec (2 ^ 300 - 1) (highestTick prec) ∧ IsTick prec (lowestTick prec) ∧
    ∀ n : Nat, lowestTick prec ≤ n ↔ prec + 1 ≤ (Nat.digits 10 n).length := by
  refine ⟨⟨isTick_down (by decide +kernel) prec, down_le (by decide +kernel) prec,
    fun u hu hup => down_greatest (by decide +kernel) hu hup⟩, isTick_lowest prec, fun n => ?_⟩
  unfold lowestTick
  have := Nat.lt_digits_length_iff (b := 10) (by norm_num) (k := prec) n
  rw [Nat.succ_le_iff, this]
  constructor <;> intro h <;> exact_mod_cast h

/-- **C05** `RandomTick` returns a tick of the interval: at least the lower price and strictly below the upper one, for
every random source that returns a number in `[0, n)` when asked for one (the source panics when the interval holds fewer
than two ticks). -/
theorem C05_random_tick (rnd : Int → Int) (minPrice maxPrice : Int) (prec : Nat) (hlow : lowestTick prec ≤ minPrice)
    (hrnd : ∀ n, 0 < n → 0 ≤ rnd n ∧ rnd n < n) (hlt : priceToUpTick minPrice prec < priceToDownTick maxPrice prec) :
    IsTick prec (randomTick rnd minPrice maxPrice prec) ∧ minPrice ≤ randomTick rnd minPrice maxPrice prec ∧
    randomTick rnd minPrice maxPrice prec < maxPrice := by
  have hmin : 0 < minPrice := lt_of_lt_of_le (lowestTick_pos prec) hlow
  have hup := isCeil_up hmin prec
  have hmax : 0 < maxPrice := by
    by_contra hc
    have h0 := isTick_pos hup.1
    have hd : priceToDownTick maxPrice prec ≤ 0 := by
      unfold priceToDownTick
      simp only
      rcases Int.lt_or_eq_of_le (show maxPrice ≤ 0 by omega) with hneg | hz
      · have e : ∀ k : Int, 0 < k → (maxPrice.tdiv k) * k ≤ 0 := by
          intro k hk
          have h1 : maxPrice.tdiv k ≤ 0 := by
            have := Int.tdiv_nonneg (show 0 ≤ -maxPrice by omega) hk.le
            rw [Int.neg_tdiv] at this
            omega
          exact mul_nonpos_of_nonpos_of_nonneg h1 hk.le
        split
        · exact e _ (by first | exact pow10_pos _ | exact Int.pow_pos (by norm_num))
        · omega
      · subst hz
        split
        · simp
        · omega
    omega
  have hdn := isTick_down hmax prec
  have hl1 : lowestTick prec ≤ priceToUpTick minPrice prec := by have := hup.2.1; omega
  have hl2 : lowestTick prec ≤ priceToDownTick maxPrice prec := by omega
  have hidx := index_lt hup.1 hdn hl1 hlt
  have hi0 := tickToIndex_nonneg hl1
  obtain ⟨r0, r1⟩ := hrnd (tickToIndex (priceToDownTick maxPrice prec) prec - tickToIndex (priceToUpTick minPrice prec) prec)
    (by omega)
  unfold randomTick
  simp only
  generalize rnd _ = r at *
  have hf := tickFromIndex_facts (show 0 ≤ tickToIndex (priceToUpTick minPrice prec) prec + r by omega) prec
  refine ⟨hf.2.1, ?_, ?_⟩
  · have h1 : priceToUpTick minPrice prec ≤ tickFromIndex (tickToIndex (priceToUpTick minPrice prec) prec + r) prec := by
      rcases eq_or_lt_of_le r0 with e | e
      · rw [← e, add_zero, fromIndex_index hup.1 hl1]
      · have := fromIndex_lt hi0 (show _ < tickToIndex (priceToUpTick minPrice prec) prec + r by omega) prec
        rw [fromIndex_index hup.1 hl1] at this
        exact this.le
    have := hup.2.1
    omega
  · have h1 := fromIndex_lt (show 0 ≤ tickToIndex (priceToUpTick minPrice prec) prec + r by omega)
      (show tickToIndex (priceToUpTick minPrice prec) prec + r < tickToIndex (priceToDownTick maxPrice prec) prec by omega) prec
    rw [fromIndex_index hdn hl2] at h1
    have := down_le hmax prec
    omega

/-- Non-vacuity: between 0.99995 and 1.5 there are 500 ticks to choose from. -/
example : randomTick (fun n => n - 1) 999950000000000000 1500500000000000000 3 = 1499000000000000000 ∧
    lowestTick 3 ≤ 999950000000000000 ∧
    priceToUpTick 999950000000000000 3 < priceToDownTick 1500500000000000000 3 := by decide +kernel

end Verif.Props

import Verif.Proofs.View
import Verif.Props.Tick
/-! Lemmas about `FindMatchPrice`. -/
namespace Verif.Amm
open Verif Verif.Spec

theorem lowest_lt_highest {prec : Nat} (hp : prec ≤ 18) : lowestTick prec < highestTick prec := by
  have h1 : upTick (lowestTick prec) prec ≤ highestTick prec := by
    apply down_greatest (by decide +kernel) (isNext_up (lowestTick_pos prec) prec).1
    have : (10:Int) ^ prec ≤ 10 ^ 18 := pow_le_pow10 hp
    have h2 := (isNext_up (lowestTick_pos prec) prec).2.2 (lowestTick prec * 10)
      ⟨1, prec + 1, by omega, Nat.one_lt_pow (by omega) (by omega), by unfold lowestTick; rw [pow_succ]; push_cast; ring⟩
      (by have := lowestTick_pos prec; omega)
    unfold lowestTick at *
    have : (10:Int)^18 * 10 ≤ 2 ^ 300 - 1 := by decide +kernel
    omega
  have := (isNext_up (lowestTick_pos prec) prec).2.1
  omega

/-- Index of the highest tick. -/
def topIndex (prec : Nat) : Int := tickToIndex (highestTick prec) prec

theorem isTick_highest (prec : Nat) : IsTick prec (highestTick prec) := isTick_down (by decide +kernel) prec

theorem topIndex_pos {prec : Nat} (hp : prec ≤ 18) : 0 < topIndex prec := by
  have := index_lt (isTick_lowest prec) (isTick_highest prec) (le_refl _) (lowest_lt_highest hp)
  rw [index_lowest] at this; exact this

theorem fromIndex_le {i j : Int} (hi : 0 ≤ i) (hij : i ≤ j) (prec : Nat) : tickFromIndex i prec ≤ tickFromIndex j prec := by
  rcases lt_or_eq_of_le hij with h | h
  · exact le_of_lt (fromIndex_lt hi h prec)
  · rw [h]

theorem fromIndex_pos {i : Int} (hi : 0 ≤ i) (prec : Nat) : 0 < tickFromIndex i prec :=
  lt_of_lt_of_le (lowestTick_pos prec) (tickFromIndex_facts hi prec).1

theorem fromIndex_neg_one (prec : Nat) : tickFromIndex (-1) prec = 10 ^ prec - 1 := by
  have hp := pow10_pos prec
  have hd : (-1 : Int).tdiv (9 * 10 ^ prec) = 0 := by
    rw [Int.neg_tdiv, Int.tdiv_eq_zero_of_lt (by norm_num) (by omega)]; rfl
  have hm : (-1 : Int).tmod (10 ^ prec * 9) = -1 := by
    rw [Int.neg_tmod, Int.tmod_eq_of_lt (by norm_num) (by omega)]
  unfold tickFromIndex
  simp only [hd, hm]
  rw [if_neg (by omega)]; ring

/-- Ticks of the range are exactly the ticks with index in `[0, topIndex]`. -/
theorem inRange_iff {prec : Nat} (hp : prec ≤ 18) (t : Int) :
    InRange prec t ↔ ∃ i, 0 ≤ i ∧ i ≤ topIndex prec ∧ t = tickFromIndex i prec := by
  constructor
  · rintro ⟨h1, h2, h3⟩
    refine ⟨tickToIndex t prec, tickToIndex_nonneg h2, ?_, (fromIndex_index h1 h2).symm⟩
    by_contra hc
    have := (index_lt_iff (isTick_highest prec) h1 (le_of_lt (lowest_lt_highest hp)) h2).1 (by unfold topIndex at hc; omega)
    omega
  · rintro ⟨i, h0, h1, rfl⟩
    obtain ⟨a, b, _, _⟩ := tickFromIndex_facts h0 prec
    refine ⟨b, a, ?_⟩
    have := fromIndex_le h0 h1 prec
    unfold topIndex at this
    rwa [fromIndex_index (isTick_highest prec) (le_of_lt (lowest_lt_highest hp))] at this

theorem up_iff {ov : OrderView} {prec : Nat} {i : Int} (h0 : 0 ≤ i) :
    matchPriceUp ov prec i = true ↔ SellCovers ov prec (tickFromIndex i prec) := by
  unfold matchPriceUp SellCovers
  simp only [Bool.and_eq_true, decide_eq_true_eq]
  have hn := isNext_fromIndex h0 prec
  constructor
  · rintro ⟨h1, h2⟩; exact ⟨h1, fun u hu => by rw [next_unique hu hn]; exact h2⟩
  · rintro ⟨h1, h2⟩; exact ⟨h1, h2 _ hn⟩

theorem down_iff {ov : OrderView} {prec : Nat} (hv : MonotoneView ov) {i : Int} (h0 : 0 ≤ i) :
    matchPriceDown ov prec i = true ↔ BuyCovers ov prec (tickFromIndex i prec) := by
  unfold matchPriceDown BuyCovers
  simp only [Bool.and_eq_true, decide_eq_true_eq]
  rcases lt_or_eq_of_le h0 with h | h
  · have hn := isNext_fromIndex (show 0 ≤ i - 1 by omega) prec
    rw [show i - 1 + 1 = i by ring] at hn
    have hpv := isPrev_of_next (tickFromIndex_facts (show 0 ≤ i - 1 by omega) prec).2.1 hn
    constructor
    · rintro ⟨h1, h2⟩; exact ⟨h1, fun u hu => by rw [prev_unique hu hpv]; exact h2⟩
    · rintro ⟨h1, h2⟩; exact ⟨h1, h2 _ hpv⟩
  · subst h
    rw [show (0:Int) - 1 = -1 by rfl, fromIndex_neg_one]
    have e0 : tickFromIndex 0 prec = 10 ^ prec := by
      have := fromIndex_index (isTick_lowest prec) (le_refl _)
      rw [index_lowest] at this; exact this
    rw [e0]
    cases prec with
    | zero =>
      simp only [pow_zero]
      constructor
      · rintro ⟨h1, h2⟩
        refine ⟨h1, fun u hu => ?_⟩
        have := isTick_pos hu.1; have := hu.2.1; omega
      · rintro ⟨h1, _⟩; exact ⟨h1, by rw [show (1:Int) - 1 = 0 by rfl, hv.sell_zero]; exact le_of_lt h1⟩
    | succ k =>
      have hk := pow_succ10 k
      have hk' := pow_succ10 (k+1)
      have := pow10_pos k
      have ht : IsTick (k+1) (10 ^ (k+1) - 1) := by
        have := @isTick_mul (k+1) (10 ^ (k+1) - 1) 0 (by omega) (by omega)
        simpa using this
      have hpv : IsPrevTick (k+1) (10 ^ (k+1)) (10 ^ (k+1) - 1) := ⟨ht, by omega, fun u _ hu => by omega⟩
      constructor
      · rintro ⟨h1, h2⟩; exact ⟨h1, fun u hu => by rw [prev_unique hu hpv]; exact h2⟩
      · rintro ⟨h1, h2⟩; exact ⟨h1, h2 _ hpv⟩

theorem up_mono {ov : OrderView} {prec : Nat} (hv : MonotoneView ov) {a b : Int} (h0 : 0 ≤ a) (hab : a ≤ b)
    (h : matchPriceUp ov prec a = true) : matchPriceUp ov prec b = true := by
  unfold matchPriceUp at *
  simp only [Bool.and_eq_true, decide_eq_true_eq] at *
  have h1 := hv.sell_mono _ _ (le_of_lt (fromIndex_pos h0 prec)) (fromIndex_le h0 hab prec)
  have h2 := hv.buy_anti _ _ (fromIndex_pos (show 0 ≤ a + 1 by omega) prec) (fromIndex_le (show 0 ≤ a + 1 by omega) (show a + 1 ≤ b + 1 by omega) prec)
  omega

theorem down_mono {ov : OrderView} {prec : Nat} (hv : MonotoneView ov) {a b : Int} (h0 : 0 ≤ a) (hab : a ≤ b)
    (h : matchPriceDown ov prec b = true) : matchPriceDown ov prec a = true := by
  unfold matchPriceDown at *
  simp only [Bool.and_eq_true, decide_eq_true_eq] at *
  have h1 := hv.buy_anti _ _ (fromIndex_pos h0 prec) (fromIndex_le h0 hab prec)
  have h2 : ov.sellAmountUnder (tickFromIndex (a - 1) prec) true ≤ ov.sellAmountUnder (tickFromIndex (b - 1) prec) true := by
    apply hv.sell_mono
    · rcases lt_or_eq_of_le h0 with h' | h'
      · exact le_of_lt (fromIndex_pos (by omega) prec)
      · subst h'
        rw [show (0:Int) - 1 = -1 by rfl, fromIndex_neg_one]
        have := pow10_pos prec
        omega
    rcases lt_or_eq_of_le h0 with h' | h'
    · exact fromIndex_le (by omega) (by omega) prec
    · subst h'
      rcases lt_or_eq_of_le hab with h'' | h''
      · have := (tickFromIndex_facts (show 0 ≤ b - 1 by omega) prec).1
        rw [show (0:Int) - 1 = -1 by rfl, fromIndex_neg_one]; unfold lowestTick at this; omega
      · rw [h'']
  omega

/-- Rounding a price between two ticks stays between them. -/
theorem round_between {prec : Nat} {a b p : Int} (ha : IsTick prec a) (hb : IsTick prec b) (hl : lowestTick prec ≤ a)
    (h1 : a ≤ p) (h2 : p ≤ b) : IsTick prec (roundPrice p prec) ∧ a ≤ roundPrice p prec ∧ roundPrice p prec ≤ b ∧
      (IsFloorTick prec p (roundPrice p prec) ∨ IsCeilTick prec p (roundPrice p prec)) := by
  obtain ⟨r1, r2⟩ := Verif.Props.C05_round_price p prec (by omega)
  by_cases ht : IsTick prec p
  · rw [r1 ht]; exact ⟨ht, h1, h2, Or.inl ⟨ht, le_refl _, fun _ _ h => h⟩⟩
  · obtain ⟨r3, _⟩ := r2 ht
    rcases r3 with h | h
    · exact ⟨h.1, h.2.2 a ha h1, le_trans h.2.1 h2, Or.inl h⟩
    · exact ⟨h.1, le_trans h1 h.2.1, h.2.2 b hb h2, Or.inr h⟩

end Verif.Amm

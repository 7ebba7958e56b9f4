import Verif.Proofs.Tick
/-! Helper lemmas about tick indices (x/dex/amm/tick.go:159-201). -/
namespace Verif.Amm
open Verif Verif.Spec

theorem lowestTick_pos (prec : Nat) : 0 < lowestTick prec := pow10_pos prec

theorem char_ge_of_lowest {t : Int} {prec : Nat} (h : lowestTick prec ≤ t) : prec ≤ char t := by
  have h0 : 0 < t := lt_of_lt_of_le (lowestTick_pos prec) h
  have := pow_lt_imp (lt_of_le_of_lt h (char_spec h0).2)
  omega

theorem tickToIndex_eq {t : Int} (h : 0 < t) {prec : Nat} (hl : prec ≤ char t) :
    tickToIndex t prec = (gapExp t prec : Int) * 9 * 10 ^ prec + (t / 10 ^ gapExp t prec - 10 ^ prec) := by
  unfold tickToIndex
  have h0 : ¬ t < 0 := by omega
  have e : ((decLen t.natAbs : Int) + (if t < 0 then 1 else 0)) - 1 = (char t : Int) := by
    have := (decLen_spec t.natAbs (by omega)).1
    unfold char; simp only [if_neg h0]; omega
  simp only [e, gap_eq]
  have e2 : (char t : Int) - prec = (gapExp t prec : Int) := by unfold gapExp; omega
  rw [e2]
  split
  · rw [Int.tdiv_eq_ediv_of_nonneg (le_of_lt h)]
  · have : gapExp t prec = 0 := by omega
    simp [this]

theorem mant_ge {t : Int} (h : 0 < t) {prec : Nat} (hl : prec ≤ char t) : 10 ^ prec ≤ t / 10 ^ gapExp t prec := by
  rw [Int.le_ediv_iff_mul_le (pow10_pos _), ← pow_add]
  have : prec + gapExp t prec = char t := by unfold gapExp; omega
  rw [this]; exact (char_spec h).1

theorem pow_succ10 (n : Nat) : (10:Int) ^ (n + 1) = 10 * 10 ^ n := by rw [pow_succ]; ring

theorem tickToIndex_nonneg {t : Int} {prec : Nat} (h : lowestTick prec ≤ t) : 0 ≤ tickToIndex t prec := by
  have h0 : 0 < t := lt_of_lt_of_le (lowestTick_pos prec) h
  have hl := char_ge_of_lowest h
  rw [tickToIndex_eq h0 hl]
  have := mant_ge h0 hl
  have : 0 ≤ (gapExp t prec : Int) * 9 * 10 ^ prec := by positivity
  omega

theorem tickFromIndex_eq {i : Int} (h : 0 ≤ i) (prec : Nat) :
    tickFromIndex i prec = (10 ^ prec + i % (9 * 10 ^ prec)) * 10 ^ (i / (9 * 10 ^ prec)).toNat := by
  unfold tickFromIndex
  have hp := pow10_pos prec
  simp only [Int.tdiv_eq_ediv_of_nonneg h, Int.tmod_eq_emod_of_nonneg h, mul_comm ((10:Int) ^ prec) 9]
  have hq : 0 ≤ i / (9 * 10 ^ prec) := Int.ediv_nonneg h (by omega)
  split
  · congr 2; omega
  · have : i / (9 * 10 ^ prec) = 0 := by omega
    rw [this]; simp

theorem tickFromIndex_facts {i : Int} (h : 0 ≤ i) (prec : Nat) :
    lowestTick prec ≤ tickFromIndex i prec ∧ IsTick prec (tickFromIndex i prec) ∧
    char (tickFromIndex i prec) = prec + (i / (9 * 10 ^ prec)).toNat ∧
    tickFromIndex i prec / 10 ^ (i / (9 * 10 ^ prec)).toNat = 10 ^ prec + i % (9 * 10 ^ prec) := by
  rw [tickFromIndex_eq h]
  have hp := pow10_pos prec
  have hr0 := Int.emod_nonneg i (show (9 * 10 ^ prec : Int) ≠ 0 by omega)
  have hr1 := Int.emod_lt_of_pos i (show (0:Int) < 9 * 10 ^ prec by omega)
  generalize i % (9 * 10 ^ prec) = r at *
  generalize (i / (9 * 10 ^ prec)).toNat = q
  have hq := pow10_pos q
  have hq1 : (1:Int) ≤ 10 ^ q := hq
  refine ⟨?_, ?_, ?_, ?_⟩
  · unfold lowestTick
    calc (10:Int) ^ prec = 10 ^ prec * 1 := by ring
      _ ≤ (10 ^ prec + r) * 10 ^ q := mul_le_mul (by omega) hq1 (by omega) (by omega)
  · exact isTick_mul (by omega) (by rw [pow_succ10]; omega)
  · apply char_unique
    · rw [pow_add]; exact mul_le_mul_of_nonneg_right (by omega) (le_of_lt hq)
    · rw [show prec + q + 1 = prec + 1 + q by omega, pow_add, pow_succ10]
      exact mul_lt_mul_of_pos_right (by omega) hq
  · exact Int.mul_ediv_cancel _ (ne_of_gt hq)

theorem index_fromIndex {i : Int} (h : 0 ≤ i) (prec : Nat) : tickToIndex (tickFromIndex i prec) prec = i := by
  obtain ⟨a, b, c, d⟩ := tickFromIndex_facts h prec
  have hg : gapExp (tickFromIndex i prec) prec = (i / (9 * 10 ^ prec)).toNat := by unfold gapExp; omega
  rw [tickToIndex_eq (isTick_pos b) (by omega), hg, d]
  have hp := pow10_pos prec
  have hq : 0 ≤ i / (9 * 10 ^ prec) := Int.ediv_nonneg h (by omega)
  rw [Int.toNat_of_nonneg hq]
  have := Int.mul_ediv_add_emod i (9 * 10 ^ prec)
  linarith

theorem fromIndex_index {t : Int} {prec : Nat} (ht : IsTick prec t) (h : lowestTick prec ≤ t) :
    tickFromIndex (tickToIndex t prec) prec = t := by
  have h0 := isTick_pos ht
  have hl := char_ge_of_lowest h
  rw [tickFromIndex_eq (tickToIndex_nonneg h), tickToIndex_eq h0 hl]
  have m1 := mant_ge h0 hl
  have m2 := mant_lt h0 prec
  have e := down_eq h0 prec
  rw [down_of_tick ht] at e
  rw [pow_succ10] at m2
  have hp := pow10_pos prec
  set g := gapExp t prec
  set m := t / 10 ^ g with hm
  have e1 : ((g:Int) * 9 * 10 ^ prec + (m - 10 ^ prec)) / (9 * 10 ^ prec) = g := by
    rw [show (g:Int) * 9 * 10 ^ prec + (m - 10 ^ prec) = (m - 10 ^ prec) + g * (9 * 10 ^ prec) by ring]
    rw [Int.add_mul_ediv_right _ _ (by omega), Int.ediv_eq_zero_of_lt (by omega) (by omega)]; simp
  have e2 : ((g:Int) * 9 * 10 ^ prec + (m - 10 ^ prec)) % (9 * 10 ^ prec) = m - 10 ^ prec := by
    rw [show (g:Int) * 9 * 10 ^ prec + (m - 10 ^ prec) = (m - 10 ^ prec) + g * (9 * 10 ^ prec) by ring]
    rw [Int.add_mul_emod_self_right, Int.emod_eq_of_lt (by omega) (by omega)]
  rw [e1, e2]
  simp only [Int.toNat_natCast]
  rw [show (10:Int) ^ prec + (m - 10 ^ prec) = m by ring]
  exact e.symm

theorem index_lt {t u : Int} {prec : Nat} (ht : IsTick prec t) (hu : IsTick prec u)
    (h : lowestTick prec ≤ t) (hlt : t < u) : tickToIndex t prec < tickToIndex u prec := by
  have ht0 := isTick_pos ht
  have hu0 := isTick_pos hu
  have htl := char_ge_of_lowest h
  have hul := char_ge_of_lowest (le_trans h (le_of_lt hlt))
  have hcc : char t ≤ char u := by
    have := pow_lt_imp (lt_of_le_of_lt (char_spec ht0).1 (lt_trans hlt (char_spec hu0).2)); omega
  rw [tickToIndex_eq ht0 htl, tickToIndex_eq hu0 hul]
  have t1 := mant_ge ht0 htl
  have t2 := mant_lt ht0 prec
  have u1 := mant_ge hu0 hul
  have hp := pow10_pos prec
  rw [pow_succ10] at t2
  rcases lt_or_eq_of_le hcc with hc | hc
  · have hg : gapExp t prec + 1 ≤ gapExp u prec := by unfold gapExp; omega
    have : ((gapExp t prec : Int) + 1) * (9 * 10 ^ prec) ≤ (gapExp u prec : Int) * (9 * 10 ^ prec) :=
      mul_le_mul_of_nonneg_right (by exact_mod_cast hg) (by omega)
    nlinarith
  · have hg : gapExp u prec = gapExp t prec := by unfold gapExp; omega
    have et := down_eq ht0 prec
    have eu := down_eq hu0 prec
    rw [down_of_tick ht] at et
    rw [down_of_tick hu, hg] at eu
    rw [hg]
    have : t / 10 ^ gapExp t prec < u / 10 ^ gapExp t prec := by
      generalize t / 10 ^ gapExp t prec = a at *
      generalize u / 10 ^ gapExp t prec = b at *
      rw [et, eu] at hlt
      exact lt_of_mul_lt_mul_right hlt (le_of_lt (pow10_pos _))
    omega

theorem index_lt_iff {t u : Int} {prec : Nat} (ht : IsTick prec t) (hu : IsTick prec u)
    (h : lowestTick prec ≤ t) (h' : lowestTick prec ≤ u) : tickToIndex t prec < tickToIndex u prec ↔ t < u := by
  constructor
  · intro hi
    by_contra hc
    rcases lt_or_eq_of_le (not_lt.mp hc) with h1 | h1
    · have := index_lt hu ht h' h1; omega
    · subst h1; omega
  · exact index_lt ht hu h

theorem fromIndex_lt {i j : Int} (hi : 0 ≤ i) (hij : i < j) (prec : Nat) :
    tickFromIndex i prec < tickFromIndex j prec := by
  obtain ⟨a, b, _, _⟩ := tickFromIndex_facts hi prec
  obtain ⟨a', b', _, _⟩ := tickFromIndex_facts (show 0 ≤ j by omega) prec
  rw [← index_lt_iff b b' a a', index_fromIndex hi, index_fromIndex (by omega)]; exact hij

theorem isNext_fromIndex {i : Int} (hi : 0 ≤ i) (prec : Nat) :
    IsNextTick prec (tickFromIndex i prec) (tickFromIndex (i + 1) prec) := by
  obtain ⟨a, b, _, _⟩ := tickFromIndex_facts hi prec
  obtain ⟨a', b', _, _⟩ := tickFromIndex_facts (show 0 ≤ i + 1 by omega) prec
  refine ⟨b', fromIndex_lt hi (by omega) prec, fun u hu hlt => ?_⟩
  have hlow : lowestTick prec ≤ u := by omega
  have h1 := index_lt b hu a hlt
  rw [index_fromIndex hi] at h1
  by_contra hc
  have h2 := index_lt hu b' hlow (by omega)
  rw [index_fromIndex (by omega)] at h2
  omega

theorem index_upTick {t : Int} {prec : Nat} (ht : IsTick prec t) (h : lowestTick prec ≤ t) :
    tickToIndex (upTick t prec) prec = tickToIndex t prec + 1 := by
  have h1 := isNext_fromIndex (tickToIndex_nonneg h) prec
  rw [fromIndex_index ht h] at h1
  have := next_unique (isNext_up (isTick_pos ht) prec) h1
  rw [this, index_fromIndex (by have := tickToIndex_nonneg h; omega)]

theorem isTick_lowest (prec : Nat) : IsTick prec (lowestTick prec) := by
  have := @isTick_mul prec 1 prec (by norm_num) (by have := pow10_pos (prec+1); omega)
  simpa [lowestTick] using this

theorem index_lowest (prec : Nat) : tickToIndex (lowestTick prec) prec = 0 := by
  have hc : char (lowestTick prec) = prec :=
    char_unique (le_refl _) (by unfold lowestTick; rw [pow_succ10]; have := pow10_pos prec; omega)
  have hg : gapExp (lowestTick prec) prec = 0 := by unfold gapExp; omega
  rw [tickToIndex_eq (lowestTick_pos prec) (by omega), hg]; simp [lowestTick]

theorem lowest_le_down {p : Int} {prec : Nat} (h : lowestTick prec ≤ p) : lowestTick prec ≤ priceToDownTick p prec :=
  down_greatest (lt_of_lt_of_le (lowestTick_pos prec) h) (isTick_lowest prec) h

end Verif.Amm

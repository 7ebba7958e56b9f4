import Verif.Model.Tick
import Verif.Spec.Tick
import Mathlib.Tactic.Ring
import Mathlib.Tactic.Linarith
/-! Helper lemmas about ticks (x/dex/amm/tick.go). -/
namespace Verif.Amm
open Verif Verif.Spec

theorem decLenAux_spec : ∀ (fuel n : Nat), 0 < n → n < 10 ^ fuel * 10 →
    1 ≤ decLenAux fuel n ∧ 10 ^ (decLenAux fuel n - 1) ≤ n ∧ n < 10 ^ decLenAux fuel n := by
  intro fuel
  induction fuel with
  | zero => intro n h0 h; simp [decLenAux] at *; omega
  | succ k ih =>
    intro n h0 h
    unfold decLenAux
    split
    · simp; omega
    · have h1 : 0 < n / 10 := by omega
      have h2 : n / 10 < 10 ^ k * 10 := by
        rw [Nat.div_lt_iff_lt_mul (by decide)]; rw [pow_succ] at h; exact h
      obtain ⟨a, b, c⟩ := ih (n / 10) h1 h2
      refine ⟨by omega, ?_, ?_⟩
      · have : decLenAux k (n / 10) + 1 - 1 = (decLenAux k (n/10) - 1) + 1 := by omega
        rw [this, pow_succ]; omega
      · rw [pow_succ]; omega

theorem decLen_spec (n : Nat) (h : 0 < n) :
    1 ≤ decLen n ∧ 10 ^ (decLen n - 1) ≤ n ∧ n < 10 ^ decLen n := by
  apply decLenAux_spec _ _ h
  have h1 : n < 2 ^ (Nat.log2 n + 1) := Nat.lt_log2_self
  have h2 : 2 ^ (Nat.log2 n + 1) ≤ 10 ^ (Nat.log2 n + 1) := Nat.pow_le_pow_left (by decide) _
  omega

theorem char_spec {p : Int} (h : 0 < p) : (10 : Int) ^ char p ≤ p ∧ p < 10 ^ (char p + 1) := by
  obtain ⟨n, rfl⟩ := Int.eq_ofNat_of_zero_le (le_of_lt h)
  have hn : 0 < n := by omega
  obtain ⟨a, b, c⟩ := decLen_spec n hn
  have h0 : ¬ ((n : Int) < 0) := by omega
  have h1 : char (n : Int) = decLen n - 1 := by simp [char, h0]
  rw [h1]
  have : decLen n - 1 + 1 = decLen n := by omega
  rw [this]
  exact ⟨by exact_mod_cast b, by exact_mod_cast c⟩

theorem pow10_pos (n : Nat) : (0 : Int) < 10 ^ n := by positivity

theorem pow_le_pow10 {a b : Nat} (h : a ≤ b) : (10 : Int) ^ a ≤ 10 ^ b :=
  pow_le_pow_right₀ (by norm_num) h

theorem pow_lt_imp {a b : Nat} (h : (10 : Int) ^ a < 10 ^ b) : a < b := by
  by_contra hc
  have := pow_le_pow10 (Nat.le_of_not_lt hc)
  omega

theorem char_unique {p : Int} {l : Nat} (h1 : (10 : Int) ^ l ≤ p) (h2 : p < 10 ^ (l + 1)) : char p = l := by
  have h : 0 < p := lt_of_lt_of_le (pow10_pos l) h1
  obtain ⟨a, b⟩ := char_spec h
  have c := pow_lt_imp (lt_of_le_of_lt a h2)
  have d := pow_lt_imp (lt_of_le_of_lt h1 b)
  omega

/-- Exponent of the tick gap at a positive price: `max 0 (char p - prec)`. -/
def gapExp (p : Int) (prec : Nat) : Nat := char p - prec

theorem gap_eq (p : Int) (prec : Nat) : ((char p : Int) - prec).toNat = gapExp p prec := by
  unfold gapExp; omega

/-- Down-tick in closed form: floor to a multiple of `10^gapExp`. -/
theorem down_eq {p : Int} (h : 0 < p) (prec : Nat) :
    priceToDownTick p prec = p / 10 ^ gapExp p prec * 10 ^ gapExp p prec := by
  unfold priceToDownTick
  simp only [gap_eq]
  split
  · rw [Int.tdiv_eq_ediv_of_nonneg (le_of_lt h)]
  · have : gapExp p prec = 0 := by unfold gapExp; omega
    simp [this]

theorem down_le {p : Int} (h : 0 < p) (prec : Nat) : priceToDownTick p prec ≤ p := by
  rw [down_eq h]; exact Int.ediv_mul_le _ (ne_of_gt (pow10_pos _))

theorem lt_down_add {p : Int} (h : 0 < p) (prec : Nat) : p < priceToDownTick p prec + 10 ^ gapExp p prec := by
  rw [down_eq h]
  have := Int.lt_ediv_add_one_mul_self p (pow10_pos (gapExp p prec))
  linarith

theorem pow_char_split {p : Int} (prec : Nat) :
    (10:Int) ^ char p = 10 ^ (char p - gapExp p prec) * 10 ^ gapExp p prec := by
  rw [← pow_add]; congr 1; unfold gapExp; omega

theorem pow_char_le_down {p : Int} (h : 0 < p) (prec : Nat) : (10:Int) ^ char p ≤ priceToDownTick p prec := by
  rw [down_eq h, pow_char_split prec]
  apply mul_le_mul_of_nonneg_right _ (le_of_lt (pow10_pos _))
  rw [Int.le_ediv_iff_mul_le (pow10_pos _), ← pow_char_split prec]
  exact (char_spec h).1

theorem down_pos {p : Int} (h : 0 < p) (prec : Nat) : 0 < priceToDownTick p prec :=
  lt_of_lt_of_le (pow10_pos _) (pow_char_le_down h prec)

theorem char_down {p : Int} (h : 0 < p) (prec : Nat) : char (priceToDownTick p prec) = char p :=
  char_unique (pow_char_le_down h prec) (lt_of_le_of_lt (down_le h prec) (char_spec h).2)

theorem gapExp_down {p : Int} (h : 0 < p) (prec : Nat) : gapExp (priceToDownTick p prec) prec = gapExp p prec := by
  unfold gapExp; rw [char_down h]

theorem down_idem {p : Int} (h : 0 < p) (prec : Nat) :
    priceToDownTick (priceToDownTick p prec) prec = priceToDownTick p prec := by
  rw [down_eq (down_pos h prec), gapExp_down h, down_eq h]
  rw [Int.mul_ediv_cancel _ (ne_of_gt (pow10_pos _))]

/-- The mantissa `p / 10^gapExp` lies below `10^(prec+1)`. -/
theorem mant_lt {p : Int} (h : 0 < p) (prec : Nat) : p / 10 ^ gapExp p prec < 10 ^ (prec + 1) := by
  rw [Int.ediv_lt_iff_lt_mul (pow10_pos _), ← pow_add]
  refine lt_of_lt_of_le (char_spec h).2 (pow_le_pow10 ?_)
  unfold gapExp; omega

theorem mant_pos {p : Int} (h : 0 < p) (prec : Nat) : 0 < p / 10 ^ gapExp p prec := by
  have h1 := pow_char_le_down h prec
  rw [down_eq h] at h1
  have h2 := pow10_pos (char p)
  have h3 := pow10_pos (gapExp p prec)
  by_contra hc
  have : p / 10 ^ gapExp p prec * 10 ^ gapExp p prec ≤ 0 := mul_nonpos_of_nonpos_of_nonneg (by omega) (le_of_lt h3)
  omega

theorem isTick_pos {prec : Nat} {t : Int} (h : IsTick prec t) : 0 < t := by
  obtain ⟨m, e, h1, _, rfl⟩ := h
  have := pow10_pos e
  have : (0:Int) < m := by exact_mod_cast h1
  positivity

theorem isTick_mul {prec : Nat} {m : Int} {e : Nat} (h0 : 0 < m) (h1 : m ≤ 10 ^ (prec + 1)) :
    IsTick prec (m * 10 ^ e) := by
  obtain ⟨n, rfl⟩ := Int.eq_ofNat_of_zero_le (le_of_lt h0)
  rcases lt_or_eq_of_le h1 with h | h
  · exact ⟨n, e, by omega, by exact_mod_cast h, rfl⟩
  · refine ⟨1, prec + 1 + e, by omega, Nat.one_lt_pow (by omega) (by omega), ?_⟩
    rw [h, ← pow_add]; simp

theorem isTick_down {p : Int} (h : 0 < p) (prec : Nat) : IsTick prec (priceToDownTick p prec) := by
  rw [down_eq h]; exact isTick_mul (mant_pos h prec) (le_of_lt (mant_lt h prec))

/-- A tick at least `10^char p` is a multiple of `10^gapExp p`. -/
theorem tick_dvd {prec : Nat} {u p : Int} (hu : IsTick prec u) (hup : (10:Int) ^ char p ≤ u) :
    (10:Int) ^ gapExp p prec ∣ u := by
  obtain ⟨m, e, h1, h2, rfl⟩ := hu
  by_cases he : gapExp p prec ≤ e
  · exact Dvd.dvd.mul_left (pow_dvd_pow _ he) _
  · exfalso
    have hm : (m:Int) < 10 ^ (prec + 1) := by exact_mod_cast h2
    have h3 : (m:Int) * 10 ^ e < 10 ^ (prec + 1) * 10 ^ e := mul_lt_mul_of_pos_right hm (pow10_pos e)
    rw [← pow_add] at h3
    have h4 := pow_lt_imp (lt_of_le_of_lt hup h3)
    unfold gapExp at he; omega

theorem down_greatest {p u : Int} {prec : Nat} (h : 0 < p) (hu : IsTick prec u) (hup : u ≤ p) :
    u ≤ priceToDownTick p prec := by
  by_cases hc : (10:Int) ^ char p ≤ u
  · obtain ⟨k, rfl⟩ := tick_dvd hu hc
    rw [down_eq h, mul_comm]
    apply mul_le_mul_of_nonneg_right _ (le_of_lt (pow10_pos _))
    rw [Int.le_ediv_iff_mul_le (pow10_pos _)]; linarith
  · have := pow_char_le_down h prec; omega

theorem down_of_tick {u : Int} {prec : Nat} (hu : IsTick prec u) : priceToDownTick u prec = u :=
  le_antisymm (down_le (isTick_pos hu) prec) (down_greatest (isTick_pos hu) hu (le_refl u))

theorem isTick_iff {u : Int} {prec : Nat} (h : 0 < u) : IsTick prec u ↔ priceToDownTick u prec = u :=
  ⟨down_of_tick, fun e => e ▸ isTick_down h prec⟩

theorem upTick_eq {p : Int} (h : 0 < p) (prec : Nat) :
    upTick p prec = priceToDownTick p prec + 10 ^ gapExp p prec := by
  unfold upTick
  simp only [pow10, char_down h, gap_eq]
  split
  · rename_i e; omega
  · rfl

theorem isNext_up {p : Int} (h : 0 < p) (prec : Nat) : IsNextTick prec p (upTick p prec) := by
  rw [upTick_eq h]
  refine ⟨?_, lt_down_add h prec, ?_⟩
  · rw [down_eq h, ← add_one_mul]
    exact isTick_mul (by have := mant_pos h prec; omega) (by have := mant_lt h prec; omega)
  · intro u hu hup
    have h1 : (10:Int) ^ char p ≤ u := le_trans (char_spec h).1 (le_of_lt hup)
    obtain ⟨k, rfl⟩ := tick_dvd hu h1
    rw [down_eq h, ← add_one_mul, mul_comm]
    apply mul_le_mul_of_nonneg_left _ (le_of_lt (pow10_pos _))
    have : p / 10 ^ gapExp p prec < k := by
      rw [Int.ediv_lt_iff_lt_mul (pow10_pos _), mul_comm]; exact hup
    omega

theorem next_unique {prec : Nat} {p t u : Int} (h1 : IsNextTick prec p t) (h2 : IsNextTick prec p u) : t = u :=
  le_antisymm (h1.2.2 u h2.1 h2.2.1) (h2.2.2 t h1.1 h1.2.1)

theorem prev_unique {prec : Nat} {p t u : Int} (h1 : IsPrevTick prec p t) (h2 : IsPrevTick prec p u) : t = u :=
  le_antisymm (h2.2.2 t h1.1 h1.2.1) (h1.2.2 u h2.1 h2.2.1)

theorem isCeil_up {p : Int} (h : 0 < p) (prec : Nat) : IsCeilTick prec p (priceToUpTick p prec) := by
  unfold priceToUpTick
  simp only
  split
  · rename_i hne
    have hlt : priceToDownTick p prec < p := lt_of_le_of_ne (down_le h prec) hne
    obtain ⟨a, b, c⟩ := isNext_up (down_pos h prec) prec
    refine ⟨a, ?_, fun u hu hup => c u hu (by omega)⟩
    rw [upTick_eq (down_pos h prec), down_idem h, gapExp_down h]
    exact le_of_lt (lt_down_add h prec)
  · rename_i he
    have he : priceToDownTick p prec = p := not_not.mp he
    refine ⟨isTick_down h prec, by omega, fun u _ hup => by omega⟩

theorem isPow10Loop_spec : ∀ (fuel n : Nat), 0 < n → n < 10 ^ fuel * 10 →
    (isPow10Loop fuel n = true ↔ ∃ k, n = 10 ^ k) := by
  intro fuel
  induction fuel with
  | zero =>
    intro n h0 h
    simp only [isPow10Loop, beq_iff_eq]
    constructor
    · rintro rfl; exact ⟨0, rfl⟩
    · rintro ⟨k, rfl⟩
      cases k with
      | zero => rfl
      | succ k => rw [pow_succ] at h; have : 0 < 10 ^ k := by positivity
                  omega
  | succ f ih =>
    intro n h0 h
    unfold isPow10Loop
    split
    · rename_i h10
      split
      · rename_i hm
        simp only [Bool.false_eq_true, false_iff]
        rintro ⟨k, rfl⟩
        cases k with
        | zero => omega
        | succ k => rw [pow_succ] at hm; omega
      · rename_i hm
        rw [ih (n / 10) (by omega) (by rw [Nat.div_lt_iff_lt_mul (by decide)]; rw [pow_succ] at h; exact h)]
        constructor
        · rintro ⟨k, hk⟩; exact ⟨k + 1, by rw [pow_succ]; omega⟩
        · rintro ⟨k, rfl⟩
          cases k with
          | zero => omega
          | succ k => exact ⟨k, by rw [pow_succ]; omega⟩
    · rename_i h10
      simp only [beq_iff_eq]
      constructor
      · rintro rfl; exact ⟨0, rfl⟩
      · rintro ⟨k, rfl⟩
        cases k with
        | zero => rfl
        | succ k => rw [pow_succ] at h10; have : 0 < 10 ^ k := by positivity
                    omega

theorem isPow10_spec {p : Int} (h : 0 < p) : isPow10 p = true ↔ p = 10 ^ char p := by
  have key : isPow10 p = true ↔ ∃ k : Nat, p = 10 ^ k := by
    unfold isPow10
    obtain ⟨n, rfl⟩ := Int.eq_ofNat_of_zero_le (le_of_lt h)
    rw [if_neg (by omega)]
    split
    · rename_i he; simp only [true_iff]; exact ⟨1, by rw [he]; rfl⟩
    · rw [Int.natAbs_natCast, isPow10Loop_spec _ _ (by omega)]
      · constructor
        · rintro ⟨k, rfl⟩; exact ⟨k, by push_cast; rfl⟩
        · rintro ⟨k, hk⟩; exact ⟨k, by exact_mod_cast hk⟩
      · have h1 : n < 2 ^ (Nat.log2 n + 1) := Nat.lt_log2_self
        have h2 : 2 ^ (Nat.log2 n + 1) ≤ 10 ^ (Nat.log2 n + 1) := Nat.pow_le_pow_left (by decide) _
        omega
  rw [key]
  constructor
  · rintro ⟨k, rfl⟩
    rw [char_unique (le_refl _) (by rw [pow_succ]; have := pow10_pos k; omega)]
  · intro e; exact ⟨_, e⟩

/-- `down p` is the greatest tick strictly below `p` if `p` is not a tick. -/
theorem isPrev_of_not_tick {p : Int} {prec : Nat} (h : 0 < p) (hn : priceToDownTick p prec ≠ p) :
    IsPrevTick prec p (priceToDownTick p prec) :=
  ⟨isTick_down h prec, lt_of_le_of_ne (down_le h prec) hn, fun _ hu hup => down_greatest h hu (le_of_lt hup)⟩

/-- If `t` and the candidate `s` satisfy `upTick s = t` (with `s` a tick), then `s` is the previous tick of `t`. -/
theorem isPrev_of_next {prec : Nat} {s t : Int} (hs : IsTick prec s) (h : IsNextTick prec s t) :
    IsPrevTick prec t s :=
  ⟨hs, h.2.1, fun u hu hup => by
    by_contra hc
    have := h.2.2 u hu (by omega)
    omega⟩

theorem isNext_of_prev {prec : Nat} {s t : Int} (ht : IsTick prec t) (h : IsPrevTick prec t s) :
    IsNextTick prec s t :=
  ⟨ht, h.2.1, fun u hu hup => by
    by_contra hc
    have := h.2.2 u hu (by omega)
    omega⟩

/-- `DownTick` on any price above one unit gives the greatest tick strictly below. -/
theorem isPrev_down {p : Int} (h : 1 < p) (prec : Nat) : IsPrevTick prec p (downTick p prec) := by
  have h0 : 0 < p := by omega
  unfold downTick
  simp only
  split
  · rename_i he
    have ht : IsTick prec p := (isTick_iff h0).2 he
    simp only [pow10]
    have hdv : (10:Int) ^ gapExp p prec ∣ p := tick_dvd ht (char_spec h0).1
    by_cases hp : isPow10 p = true
    · rw [if_pos hp]
      rw [isPow10_spec h0] at hp
      have hl : 0 < char p := by
        rcases Nat.eq_zero_or_pos (char p) with h1 | h1
        · rw [h1] at hp; simp at hp; omega
        · exact h1
      -- s = 10^l - 10^(l-prec-1)
      set l := char p with hl'
      have e1 : ((l : Int) - prec - 1).toNat = l - prec - 1 := by omega
      rw [e1]
      set g := l - prec - 1 with hg
      have hgl : g + 1 ≤ l := by omega
      have e2 : p = 10 ^ (l - g) * 10 ^ g := by rw [← pow_add]; rw [hp]; congr 1; omega
      have h2 : (10:Int) ≤ 10 ^ (l - g) := by
        calc (10:Int) = 10 ^ 1 := by norm_num
          _ ≤ _ := pow_le_pow10 (by omega)
      have e3 : p - 10 ^ g = (10 ^ (l - g) - 1) * 10 ^ g := by rw [e2]; ring
      have htick : IsTick prec (p - 10 ^ g) := by
        rw [e3]
        apply isTick_mul (by omega)
        have : (10:Int) ^ (l - g) ≤ 10 ^ (prec + 1) := pow_le_pow10 (by omega)
        omega
      apply isPrev_of_next htick
      have hpos : 0 < p - 10 ^ g := isTick_pos htick
      have hc : char (p - 10 ^ g) = l - 1 := by
        apply char_unique
        · have a1 : (10:Int) ^ g ≤ 10 ^ (l - 1) := pow_le_pow10 (by omega)
          have a2 : p = 10 * 10 ^ (l - 1) := by
            rw [hp]
            conv_lhs => rw [show l = (l - 1) + 1 by omega]
            rw [pow_succ, mul_comm]
          have := pow10_pos (l - 1)
          omega
        · have : l - 1 + 1 = l := by omega
          rw [this, ← hp]
          have := pow10_pos g
          omega
      have := isNext_up hpos prec
      rw [upTick_eq hpos, down_of_tick htick] at this
      have hge : gapExp (p - 10 ^ g) prec = g := by unfold gapExp; rw [hc]; omega
      rw [hge] at this
      simpa using this
    · rw [if_neg hp]
      rw [isPow10_spec h0] at hp
      rw [gap_eq]
      set g := gapExp p prec with hg
      have hlt : (10:Int) ^ char p < p := lt_of_le_of_ne (char_spec h0).1 (Ne.symm hp)
      obtain ⟨k, hk⟩ := hdv
      have hle : (10:Int) ^ char p ≤ p - 10 ^ g := by
        have e := @pow_char_split p prec
        rw [← hg] at e
        generalize (10:Int) ^ (char p - g) = c at e
        rw [e] at hlt ⊢
        have h5 : c < k := by
          rw [hk, mul_comm] at hlt
          exact lt_of_mul_lt_mul_left hlt (le_of_lt (pow10_pos g))
        have h6 : 10 ^ g * (c + 1) ≤ 10 ^ g * k :=
          mul_le_mul_of_nonneg_left (by omega) (le_of_lt (pow10_pos g))
        rw [hk]; linarith
      have hpos : 0 < p - 10 ^ g := lt_of_lt_of_le (pow10_pos _) hle
      have hc : char (p - 10 ^ g) = char p := by
        apply char_unique hle
        have := (char_spec h0).2
        have := pow10_pos g
        omega
      have hge : gapExp (p - 10 ^ g) prec = g := by unfold gapExp; rw [hc]; rfl
      have htick : IsTick prec (p - 10 ^ g) := by
        rw [isTick_iff hpos, down_eq hpos, hge, hk]
        rw [show (10:Int) ^ g * k - 10 ^ g = (k - 1) * 10 ^ g by ring]
        rw [Int.mul_ediv_cancel _ (ne_of_gt (pow10_pos _))]
      apply isPrev_of_next htick
      have := isNext_up hpos prec
      rw [upTick_eq hpos, down_of_tick htick, hge] at this
      simpa using this
  · rename_i hne
    exact isPrev_of_not_tick h0 hne

end Verif.Amm

import Verif.Model.Checked
import Verif.Proofs.Sqrt
/-! The size limits of the library: the square root never hits them. -/
namespace Verif.Checked
open Verif Verif.Amm Verif.Dec

set_option exponentiation.threshold 400

theorem fits_iff {a : Int} : fits a = true ↔ -(2 ^ 315) < a ∧ a < 2 ^ 315 := by
  unfold fits
  rw [decide_eq_true_eq]
  omega

theorem fitsInt_iff {a : Int} : fitsInt a = true ↔ -(2 ^ 256) < a ∧ a < 2 ^ 256 := by
  unfold fitsInt
  rw [decide_eq_true_eq]
  omega

theorem ck_eq {a : Int} (h1 : -(2 ^ 315) < a) (h2 : a < 2 ^ 315) : ck a = some a := by
  unfold ck
  rw [if_pos (fits_iff.2 ⟨h1, h2⟩)]

theorem ckInt_eq {a : Int} (h1 : -(2 ^ 256) < a) (h2 : a < 2 ^ 256) : ckInt a = some a := by
  unfold ckInt
  rw [if_pos (fitsInt_iff.2 ⟨h1, h2⟩)]

theorem sqrtLoop_next {d g δ : Int} (n : Nat) (hg : 1 ≤ g) (h : 1 < δ.natAbs) (hgf : g < 2 ^ 315 - 1)
    (hq0 : 0 ≤ Dec.quo d g) (hq : Dec.quo d g < 2 ^ 315) (hn : 1 ≤ g + (Dec.quo d g - g).tdiv 2) :
    sqrtLoop d (n + 1) g δ = sqrtLoop d n (g + (Dec.quo d g - g).tdiv 2) ((Dec.quo d g - g).tdiv 2) := by
  rw [sqrtLoop, if_pos (by omega), if_neg (show g ≠ 0 by omega)]
  have hh := half_cases (Dec.quo d g) g
  unfold quo sub add
  rw [if_neg (show g ≠ 0 by omega), ck_eq (by omega) hq]
  simp only [Option.bind_eq_bind, Option.bind_some]
  rw [ck_eq (by omega) (by omega)]
  simp only [Option.bind_some]
  rw [ck_eq (by omega) (by omega)]
  rfl

/-- If the iteration stays in a region where nothing overflows, it is the one without limits. -/
theorem sqrtLoop_eq {d : Int} (I : Int → Prop)
    (hI : ∀ g, I g → 1 ≤ g ∧ g < 2 ^ 315 - 1 ∧ 0 ≤ Dec.quo d g ∧ Dec.quo d g < 2 ^ 315 ∧ I (g + (Dec.quo d g - g).tdiv 2)) :
    ∀ (n : Nat) (g δ : Int), I g → sqrtLoop d n g δ = some (approxSqrtLoop d n g δ) := by
  intro n
  induction n with
  | zero => intro g δ _; rfl
  | succ n ih =>
    intro g δ h
    obtain ⟨h1, h2, h3, h4, h5⟩ := hI g h
    rcases Nat.lt_or_ge 1 δ.natAbs with c | c
    · rw [sqrtLoop_next n h1 c h2 h3 h4 (hI _ h5).1, loop_next _ h1 c]
      exact ih _ _ h5
    · rw [loop_stop _ c, sqrtLoop, if_neg (by omega)]

theorem Up_first {k E : Int} (hE : 0 ≤ E) (hk : 1500000000 < k) : Up (one + k) E (one + (one + k - one).tdiv 2) := by
  have hh := half_cases (one + k) one
  generalize (one + k - one).tdiv 2 = t at *
  refine ⟨by have := one_pos'; omega, ?_⟩
  have e1 : 4 * one + 2 * k - 1 ≤ 4 * (one + t) + 1 := by omega
  have e2 := mul_self_le_mul_self (show 0 ≤ 4 * one + 2 * k - 1 by have := one_pos'; omega) e1
  have e3 : 8 * one ≤ (2 * k - 1) * (2 * k - 1) := by
    have := mul_self_le_mul_self (show (0 : Int) ≤ 2999999999 by omega) (show 2999999999 ≤ 2 * k - 1 by omega)
    unfold one; omega
  nlinarith

theorem sqrt_pos_eq {d : Int} (hd : 1 ≤ d) (hne : d ≠ one) (hf : d < 2 ^ 315) :
    sqrtLoop d 300 one one = some (approxSqrtLoop d 300 one one) := by
  have ho := one_pos'
  have ho2 : one < 2 ^ 100 := by decide
  obtain ⟨S, E, hS, hE, hS1⟩ := setup_any hd
  have hh := half_cases d one
  have hn := sqrtLoop_next (d := d) (g := one) (δ := one) 299 (by decide) (by decide) (by decide)
  have hn' := loop_next (d := d) (g := one) (δ := one) 299 (by decide) (by decide)
  rw [quo_one] at hn hn'
  rw [hn (by omega) (by omega) (by omega), hn']
  clear hn hn'
  by_cases hnear : one ≤ d ∧ d ≤ one + 1500000000
  · obtain ⟨n1, n2⟩ := hnear
    refine sqrtLoop_eq (fun g => one ≤ 2 * g ∧ g ≤ 3 * one) (fun g ⟨g1, g2⟩ => ?_) _ _ _ (by unfold one at *; omega)
    have gp : 1 ≤ g := by unfold one at *; omega
    obtain ⟨b1, b2⟩ := quo_two (d := d) (g := g) (by omega) gp
    have q0 := quo_nonneg_dec (a := d) (b := g) (by omega) (by omega)
    have hh := half_cases (Dec.quo d g) g
    generalize (Dec.quo d g - g).tdiv 2 = t at *
    generalize Dec.quo d g = q at *
    have q1 : q ≤ 2 * d + 1 := by
      have : (2 * q) * g ≤ (4 * d + 1) * g := by nlinarith
      have := le_of_mul_le_mul_right this (by omega)
      omega
    have q2 : one ≤ 6 * q + 6 := by
      by_contra hc
      have e1 : d * one * 2 * one < (2 * q + 2) * one * (3 * one) := by nlinarith
      nlinarith
    have q3 : g ≤ one → one ≤ q + 1 := by
      intro hg
      by_contra hc
      have e1 : (2 * q + 1) * g ≤ (2 * one - 3) * one := mul_le_mul (by omega) hg (by omega) (by unfold one; omega)
      have e2 := Int.mul_le_mul_of_nonneg_right e1 ho.le
      have e3 : one * one ≤ d * one := Int.mul_le_mul_of_nonneg_right n1 ho.le
      have e4 := Int.mul_le_mul_of_nonneg_right e3 ho.le
      unfold one at *
      omega
    refine ⟨gp, by omega, q0, by omega, ?_⟩
    unfold one at *
    omega
  · have key : ∀ g, (Up d E g ∧ g ≤ max one (d - 2)) → 1 ≤ g ∧ g < 2 ^ 315 - 1 ∧ 0 ≤ Dec.quo d g ∧ Dec.quo d g < 2 ^ 315 ∧
        (Up d E (g + (Dec.quo d g - g).tdiv 2) ∧ g + (Dec.quo d g - g).tdiv 2 ≤ max one (d - 2)) := by
      intro g ⟨hu, hg⟩
      have hov := hS.step_over hu
      obtain ⟨u, -, -, -, le⟩ := hS.next hu
      have := hu.1
      exact ⟨hu.1, by omega, quo_nonneg_dec (by omega) (by omega), by omega, u, by omega⟩
    refine sqrtLoop_eq _ key _ _ _ ⟨?_, by omega⟩
    rcases lt_or_ge d one with c | c
    · have := hS.step_up (g := one) (by decide) (by rw [quo_one]; omega)
      rwa [quo_one] at this
    · obtain ⟨k, rfl⟩ : ∃ k, d = one + k := ⟨d - one, by omega⟩
      exact Up_first hS.E_nonneg (by omega)

/-- The square root of every number that can be stored is computed without an overflow. -/
theorem sqrt_eq {d : Int} (hf : fits d = true) : sqrt d = some (approxSqrt d) := by
  obtain ⟨h1, h2⟩ := fits_iff.1 hf
  have key : ∀ d : Int, 0 ≤ d → d < 2 ^ 315 →
      (if d = 0 ∨ d = one then some d else sqrtLoop d 300 one one) =
        some (if d = 0 ∨ d = one then d else approxSqrtLoop d 300 one one) := by
    intro d h0 h3
    by_cases h : d = 0 ∨ d = one
    · rw [if_pos h, if_pos h]
    · rw [if_neg h, if_neg h]
      exact sqrt_pos_eq (by omega) (by tauto) h3
  unfold sqrt approxSqrt
  simp only
  split
  · rw [key _ (by omega) (by omega)]
    rfl
  · exact key _ (by omega) h2

end Verif.Checked

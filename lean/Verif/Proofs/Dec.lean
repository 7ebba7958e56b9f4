import Verif.Model.Dec
import Mathlib.Tactic.Ring
import Mathlib.Tactic.Linarith
import Mathlib.Tactic.Positivity
/-! Facts about fixed-point rounding. -/
namespace Verif.Dec

theorem one_pos' : (0 : Int) < one := by decide
theorem one_eq : one = 10 ^ 18 := by decide

theorem chopNN_mono {a b : Int} (h : a ≤ b) : chopRoundNN a ≤ chopRoundNN b := by
  unfold chopRoundNN one half
  simp only
  split_ifs <;> omega

theorem chopNN_bounds (a : Int) : 2 * a - one ≤ 2 * (chopRoundNN a * one) ∧ 2 * (chopRoundNN a * one) ≤ 2 * a + one := by
  unfold chopRoundNN one half
  simp only
  split_ifs <;> constructor <;> omega

theorem chopNN_nonneg {a : Int} (h : 0 ≤ a) : 0 ≤ chopRoundNN a := by
  unfold chopRoundNN one half
  simp only
  split_ifs <;> omega

theorem chopNN_int (k : Int) : chopRoundNN (k * one) = k := by
  unfold chopRoundNN one half
  simp only
  split_ifs <;> omega

theorem chop_nn {a : Int} (h : 0 ≤ a) : chopRound a = chopRoundNN a := by unfold chopRound; rw [if_pos h]

theorem chop_nonneg {a : Int} (h : 0 ≤ a) : 0 ≤ chopRound a := by rw [chop_nn h]; exact chopNN_nonneg h

theorem chop_mono_nn {a b : Int} (ha : 0 ≤ a) (h : a ≤ b) : chopRound a ≤ chopRound b := by
  rw [chop_nn ha, chop_nn (by omega)]; exact chopNN_mono h

theorem chop_int {k : Int} : chopRound (k * one) = k := by
  unfold chopRound
  split
  · exact chopNN_int k
  · have : -(k * one) = (-k) * one := by ring
    rw [this, chopNN_int]; ring

theorem chop_bounds {a : Int} (h : 0 ≤ a) :
    2 * a - one ≤ 2 * (chopRound a * one) ∧ 2 * (chopRound a * one) ≤ 2 * a + one := by
  rw [chop_nn h]; exact chopNN_bounds a

end Verif.Dec

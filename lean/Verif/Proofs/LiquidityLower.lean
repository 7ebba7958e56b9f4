import Verif.Proofs.Liquidity
/-! Lower bounds for deposits and withdrawals (x/dex/amm/pool.go:477-532). -/
namespace Verif.Amm
open Verif Verif.Dec

/-- The deposit ratio is tight for one of the coins. -/
theorem depositRatio_tight {rx ry x y ratio : Int} (hrx : 0 ≤ rx) (hry : 0 ≤ ry) (hx : 0 ≤ x) (hy : 0 ≤ y)
    (h : depositRatio rx ry x y = some ratio) :
    (0 < rx ∧ x * one < (ratio + 1) * rx) ∨ (0 < ry ∧ y * one < (ratio + 1) * ry) := by
  unfold depositRatio at h
  split at h
  · split at h
    · simp at h
    · have hry' : 0 < ry := by omega
      rw [ratio_nn hy hry'] at h
      simp only [Option.some.injEq] at h
      subst h
      exact .inr ⟨hry', lt_ediv_add_one_mul' hry'⟩
  · have hrx' : 0 < rx := by omega
    split at h
    · rw [ratio_nn hx hrx'] at h
      simp only [Option.some.injEq] at h
      subst h
      exact .inl ⟨hrx', lt_ediv_add_one_mul' hrx'⟩
    · have hry' : 0 < ry := by omega
      rw [ratio_nn hx hrx', ratio_nn hy hry'] at h
      simp only [Option.some.injEq] at h
      subst h
      rcases min_choice (x * one / rx) (y * one / ry) with e | e <;> rw [e]
      · exact .inl ⟨hrx', lt_ediv_add_one_mul' hrx'⟩
      · exact .inr ⟨hry', lt_ediv_add_one_mul' hry'⟩

theorem mint_tight {r ps off ratio : Int} (hr : 0 < r) (hps : 0 < ps) (h : off * one < (ratio + 1) * r) :
    off * ps * one < (ps * ratio / one + 1) * r * one + ps * r := by
  have h1 : ps * ratio < (ps * ratio / one + 1) * one := lt_ediv_add_one_mul' one_pos'
  generalize ps * ratio / one = pc at *
  have h2 : off * one * ps < (ratio + 1) * r * ps := Int.mul_lt_mul_of_pos_right h hps
  have h3 : ps * ratio * r < (pc + 1) * one * r := Int.mul_lt_mul_of_pos_right h1 hr
  have e1 : off * ps * one = off * one * ps := by ring
  have e2 : (ratio + 1) * r * ps = ps * ratio * r + ps * r := by ring
  have e3 : (pc + 1) * r * one = (pc + 1) * one * r := by ring
  omega

theorem accepted_upper {r ps pc : Int} (hr : 0 ≤ r) (hps : 0 < ps) (hpc : 0 ≤ pc) :
    2 * one * ((truncateInt (ceil (Dec.mul (ofInt r) (chopRound (pc * one * one / ps)))) - 1) * ps - r * pc) <
      r * ps ∨ (r = 0 ∧ truncateInt (ceil (Dec.mul (ofInt r) (chopRound (pc * one * one / ps)))) = 0) := by
  have ho := one_pos'
  rw [mul_ofInt]
  rcases eq_or_lt_of_le hr with h0 | hr'
  · right; subst h0; simp; decide
  left
  have hn : 0 ≤ pc * one * one / ps :=
    Int.ediv_nonneg (Int.mul_nonneg (Int.mul_nonneg hpc (le_of_lt ho)) (le_of_lt ho)) (le_of_lt hps)
  have hb := (chop_bounds hn).2
  have hq : pc * one * one / ps * ps ≤ pc * one * one := ediv_mul_le' hps
  have hm := chop_nonneg hn
  generalize chopRound (pc * one * one / ps) = mp at *
  generalize pc * one * one / ps = q at *
  have hc := (truncCeil (Int.mul_nonneg hr hm)).2.1
  generalize truncateInt (ceil (r * mp)) = ax at *
  -- 2 mp one ps ≤ 2 pc one² + one ps
  have k1 : 2 * (mp * one) * ps ≤ (2 * q + one) * ps := Int.mul_le_mul_of_nonneg_right hb (le_of_lt hps)
  have k2 : 2 * (mp * one) * ps ≤ 2 * (pc * one * one) + one * ps := by nlinarith
  have k3 : 2 * (mp * ps) * one ≤ (2 * (pc * one) + ps) * one := by nlinarith
  have k4 : 2 * (mp * ps) ≤ 2 * (pc * one) + ps := le_of_mul_le_mul_right k3 ho
  have k5 : r * (2 * (mp * ps)) ≤ r * (2 * (pc * one) + ps) := Int.mul_le_mul_of_nonneg_left k4 hr
  have k6 : ax * one * ps < (r * mp + one) * ps := Int.mul_lt_mul_of_pos_right hc hps
  have e1 : 2 * one * ((ax - 1) * ps - r * pc) = 2 * (ax * one * ps) - 2 * (one * ps) - r * (2 * (pc * one)) := by ring
  have e2 : (r * mp + one) * ps = r * (mp * ps) + one * ps := by ring
  have e3 : r * (2 * (mp * ps)) = 2 * (r * (mp * ps)) := by ring
  have e4 : r * (2 * (pc * one) + ps) = r * (2 * (pc * one)) + r * ps := by ring
  omega

/-- One coordinate of a withdrawal is not less than the share, up to rounding. -/
theorem withdrawOne_lower {r ps pc fee : Int} (hr : 0 ≤ r) (hps : 0 < ps) (hpc : 0 ≤ pc) (hf : fee ≤ one) :
    r * pc * (one - fee) * one < ps * ((withdrawOne r ps pc fee + 1) * one * one + r * (one - fee)) := by
  have ho := one_pos'
  unfold withdrawOne
  rw [ratio_nn hpc hps]
  have hq : 0 ≤ pc * one / ps := Int.ediv_nonneg (Int.mul_nonneg hpc (le_of_lt one_pos')) (le_of_lt hps)
  have h1 : 0 ≤ r * (pc * one / ps) := Int.mul_nonneg hr hq
  have e1 : ofInt r * (pc * one / ps) = (r * (pc * one / ps)) * one := by unfold ofInt; ring
  have e2 : mulTruncate (ofInt r) (pc * one / ps) = r * (pc * one / ps) := by
    rw [mulTrunc_nn (by rw [e1]; exact Int.mul_nonneg h1 (le_of_lt one_pos')), e1,
      Int.mul_ediv_cancel _ (ne_of_gt one_pos')]
  rw [e2]
  have hm : 0 ≤ one - fee := by omega
  have h2 : 0 ≤ r * (pc * one / ps) * (one - fee) := Int.mul_nonneg h1 hm
  rw [mulTrunc_nn h2]
  have h3 : 0 ≤ r * (pc * one / ps) * (one - fee) / one := Int.ediv_nonneg h2 (le_of_lt one_pos')
  rw [trunc_nn h3]
  have k3 : pc * one < (pc * one / ps + 1) * ps := lt_ediv_add_one_mul' hps
  generalize pc * one / ps = q at *
  have k1 : r * q * (one - fee) < (r * q * (one - fee) / one + 1) * one := lt_ediv_add_one_mul' ho
  generalize r * q * (one - fee) / one = d at *
  have k2 : d < (d / one + 1) * one := lt_ediv_add_one_mul' ho
  generalize d / one = x at *
  have k4 : r * q * (one - fee) < (x + 1) * one * one := by
    have : (d + 1) * one ≤ (x + 1) * one * one := Int.mul_le_mul_of_nonneg_right (by omega) (le_of_lt ho)
    omega
  have k5 : r * (one - fee) * (pc * one) ≤ r * (one - fee) * ((q + 1) * ps) :=
    Int.mul_le_mul_of_nonneg_left (le_of_lt k3) (Int.mul_nonneg hr hm)
  have k6 : r * q * (one - fee) * ps < (x + 1) * one * one * ps := Int.mul_lt_mul_of_pos_right k4 hps
  have e3 : r * pc * (one - fee) * one = r * (one - fee) * (pc * one) := by ring
  have e4 : r * (one - fee) * ((q + 1) * ps) = r * q * (one - fee) * ps + r * (one - fee) * ps := by ring
  have e5 : ps * ((x + 1) * one * one + r * (one - fee)) = (x + 1) * one * one * ps + r * (one - fee) * ps := by ring
  omega

end Verif.Amm

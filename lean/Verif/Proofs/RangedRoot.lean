import Verif.Proofs.RangedCreate
import Verif.Proofs.Sqrt
/-! Creating ranged pools with the library square root (x/dex/amm/pool.go:231-294). -/
namespace Verif.Amm
open Verif Verif.Dec

set_option exponentiation.threshold 400

theorem quo_anti {a b c : Int} (ha : 0 ≤ a) (hb : 0 < b) (hbc : b ≤ c) : Dec.quo a c ≤ Dec.quo a b := by
  have ho := one_pos'
  have h0 : 0 ≤ a * one * one := Int.mul_nonneg (Int.mul_nonneg ha ho.le) ho.le
  unfold Dec.quo
  rw [Int.tdiv_eq_ediv_of_nonneg h0, Int.tdiv_eq_ediv_of_nonneg h0]
  refine chop_mono_nn (Int.ediv_nonneg h0 (by omega)) ?_
  rw [Int.le_ediv_iff_mul_le hb]
  exact le_trans (Int.mul_le_mul_of_nonneg_left hbc (Int.ediv_nonneg h0 (by omega))) (Int.ediv_mul_le _ (by omega))

/-- Roots of the prices a pool can have. -/
theorem approxSqrt_price {d : Int} (h1 : 1000 ≤ d) (h2 : d ≤ 10 ^ 38) : 1 ≤ approxSqrt d ∧ approxSqrt d ≤ 10 ^ 28 + 1 := by
  obtain ⟨-, h3, -⟩ := approxSqrt_close (d := d) (by omega) (by omega)
  obtain ⟨h4, h5⟩ := h3 (by omega)
  refine ⟨h5, ?_⟩
  by_contra hc
  have := mul_self_le_mul_self (show (0:Int) ≤ 10 ^ 28 + 1 by norm_num) (show 10 ^ 28 + 1 ≤ approxSqrt d - 1 by omega)
  unfold one at h4
  norm_num at this h2
  omega

theorem rangedAccept_le' {x y mn mx ip0 ax ay : Int} (hx : 0 ≤ x) (hy : 0 ≤ y) (h1 : 1000 ≤ mn) (h2 : mn ≤ ip0) (h3 : ip0 ≤ mx)
    (h4 : mx ≤ 10 ^ 38) (h : rangedAccept approxSqrt x y mn mx ip0 = some (ax, ay)) : 0 ≤ ax ∧ ax ≤ x ∧ 0 ≤ ay ∧ ay ≤ y := by
  have m1 := approxSqrt_mono (a := mn) (b := ip0) (by omega) h2 (by omega)
  have m2 := approxSqrt_mono (a := ip0) (b := mx) (by omega) h3 h4
  have r1 := approxSqrt_price h1 (by omega)
  have r3 := approxSqrt_price (d := mx) (by omega) h4
  have i2 := quo_anti (a := one) (by decide) (show 0 < approxSqrt ip0 by omega) m2
  have i3 : 1 ≤ Dec.quo one (approxSqrt mx) := by
    have := quo_anti (a := one) (b := approxSqrt mx) (c := 10 ^ 28 + 1) (by decide) (by omega) r3.2
    have e : 1 ≤ Dec.quo one (10 ^ 28 + 1) := by decide +kernel
    omega
  rcases eq_or_lt_of_le m1 with c1 | c1
  · -- equal roots: the division panics
    unfold rangedAccept at h
    split at h
    · simp only [Option.some.injEq, Prod.mk.injEq] at h; omega
    split at h
    · simp only [Option.some.injEq, Prod.mk.injEq] at h; omega
    unfold quo? at h
    simp only at h
    rw [if_pos (by omega)] at h
    cases h
  rcases eq_or_lt_of_le i2 with c2 | c2
  · unfold rangedAccept at h
    split at h
    · simp only [Option.some.injEq, Prod.mk.injEq] at h; omega
    split at h
    · simp only [Option.some.injEq, Prod.mk.injEq] at h; omega
    unfold quo? at h
    simp only at h
    rw [if_neg (by omega), if_neg (by omega), if_neg (by omega)] at h
    simp only [Option.bind_eq_bind, Option.bind_some, c2, sub_self] at h
    have e : ∀ q, truncateInt (ceil (Dec.mul q 0)) = 0 := by
      intro q; unfold Dec.mul; rw [Int.mul_zero]; decide
    rw [e, if_neg (by omega)] at h
    have h : some (x, (0 : Int)) = some (ax, ay) := h
    simp only [Option.some.injEq, Prod.mk.injEq] at h; omega
  · exact rangedAccept_le hx hy (by omega) c1 c2 i3 h

theorem validateRanged_true {mn mx ip : Int} (h : validateRangedPoolParams mn mx ip = true) :
    1000 ≤ mn ∧ mn ≤ ip ∧ ip ≤ mx ∧ mx ≤ 10 ^ 38 := by
  unfold validateRangedPoolParams minPoolPrice maxPoolPrice at h
  split at h; · cases h
  split at h; · cases h
  split at h; · cases h
  split at h; · cases h
  split at h; · cases h
  split at h; · cases h
  split at h; · cases h
  split at h; · cases h
  omega

/-- The reserves of a pool that is created. -/
theorem createRanged_reserves {x y mn mx ip : Int} (hx : 0 ≤ x) (hy : 0 ≤ y) {p : Pool}
    (h : createRangedPool approxSqrt x y mn mx ip = .ok p) : 0 ≤ p.rx ∧ p.rx ≤ x ∧ 0 ≤ p.ry ∧ p.ry ≤ y := by
  unfold createRangedPool at h
  split at h
  · cases h
  split at h
  · cases h
  rename_i hv
  obtain ⟨v1, v2, v3, v4⟩ := validateRanged_true (by simpa using hv)
  cases e : rangedAccept approxSqrt x y mn mx ip with
  | none => rw [e] at h; cases h
  | some a =>
    obtain ⟨ax, ay⟩ := a
    rw [e] at h
    have hb := rangedAccept_le' hx hy v1 v2 v3 v4 e
    simp only [Option.bind_eq_bind, Option.bind_some] at h
    unfold newRangedPool at h
    cases e2 : deriveTranslation approxSqrt ax ay mn mx with
    | none => rw [e2] at h; cases h
    | some t =>
      rw [e2] at h
      simp only [Option.bind_eq_bind, Option.bind_some] at h
      cases h
      exact hb
end Verif.Amm

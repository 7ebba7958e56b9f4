import Verif.Proofs.PoolDepth
/-! Accepted amounts of `CreateRangedPool` (x/dex/amm/pool.go:231-266). -/
namespace Verif.Amm
open Verif Verif.Dec

theorem quo_upper {a b : Int} (ha : 0 ≤ a) (hb : 0 < b) : 2 * (Dec.quo a b * b) ≤ 2 * (a * one) + b := by
  unfold Dec.quo
  have ho := one_pos'
  have hn : 0 ≤ a * one * one := Int.mul_nonneg (Int.mul_nonneg ha ho.le) ho.le
  have h1 : 0 ≤ (a * one * one).tdiv b := Int.tdiv_nonneg hn hb.le
  obtain ⟨_, c2⟩ := chop_bounds h1
  have h2 : (a * one * one).tdiv b * b ≤ a * one * one := by
    rw [Int.tdiv_eq_ediv_of_nonneg hn]; exact Int.ediv_mul_le _ (by omega)
  have : 2 * (chopRound ((a * one * one).tdiv b) * b) * one ≤ (2 * (a * one) + b) * one := by nlinarith
  exact le_of_mul_le_mul_right this ho

theorem mul_upper {a b : Int} (ha : 0 ≤ a) (hb : 0 ≤ b) : 2 * (Dec.mul a b * one) ≤ 2 * (a * b) + one :=
  (chop_bounds (Int.mul_nonneg ha hb)).2

theorem truncCeil' {m : Int} (hm : 0 ≤ m) : m ≤ truncateInt (ceil m) * one ∧ truncateInt (ceil m) * one < m + one := by
  have h := quoteCeil_facts (price := m) (amt := 1) (by omega)
  unfold quoteCeil mulInt at h
  rw [Int.mul_one] at h
  exact ⟨h.1, h.2.1⟩

/-- The rounding argument: accepting more than offered would need a large product of the two price differences. -/
theorem accept_arith {P x y A B q q2 m1 m2 : Int} (hP : 0 < P) (hA : 0 < A) (hB : 0 < B) (hAB : A * B < P * P)
    (u1 : 2 * (q * A) ≤ 2 * (x * P * P) + A) (u2 : 2 * (m1 * P) ≤ 2 * (q * B) + P) (u3 : y * P + 1 ≤ m1)
    (u4 : 2 * (q2 * B) ≤ 2 * (y * P * P) + B) (u5 : 2 * (m2 * P) ≤ 2 * (q2 * A) + P) (hc : x * P + 1 ≤ m2) : False := by
  have v1 : 2 * (m2 * P) * B ≤ (2 * (q2 * A) + P) * B := Int.mul_le_mul_of_nonneg_right u5 hB.le
  have v2 : 2 * (q2 * B) * A ≤ (2 * (y * P * P) + B) * A := Int.mul_le_mul_of_nonneg_right u4 hA.le
  have v3 : 2 * (m1 * P) * A ≤ (2 * (q * B) + P) * A := Int.mul_le_mul_of_nonneg_right u2 hA.le
  have v4 : 2 * (q * A) * B ≤ (2 * (x * P * P) + A) * B := Int.mul_le_mul_of_nonneg_right u1 hB.le
  have v5 : (y * P + 1) * (P * A) ≤ m1 * (P * A) := Int.mul_le_mul_of_nonneg_right u3 (Int.mul_nonneg hP.le hA.le)
  have v6 : (x * P + 1) * (P * B) ≤ m2 * (P * B) := Int.mul_le_mul_of_nonneg_right hc (Int.mul_nonneg hP.le hB.le)
  have v7 : P * (A + B) ≤ 2 * (A * B) := by linarith
  have hABp : 0 < A * B := Int.mul_pos hA hB
  have v8 : P * (A + B) * (P * (A + B)) ≤ 2 * (A * B) * (2 * (A * B)) := mul_le_mul v7 v7 (by positivity) (by positivity)
  have v9 : P * P * (4 * (A * B)) ≤ P * (A + B) * (P * (A + B)) := by
    have := mul_nonneg (mul_nonneg hP.le hP.le) (mul_self_nonneg (A - B))
    linarith
  have v10 : (P * P) * (4 * (A * B)) ≤ (A * B) * (4 * (A * B)) := by linarith
  have := le_of_mul_le_mul_right v10 (by omega : 0 < 4 * (A * B))
  omega

theorem rangedAccept_le {sqrt : Int → Int} {x y mn mx ip0 ax ay : Int} (hx : 0 ≤ x) (hy : 0 ≤ y)
    (hM : 0 ≤ sqrt mn) (hMP : sqrt mn < sqrt ip0)
    (hI : Dec.quo one (sqrt mx) < Dec.quo one (sqrt ip0)) (hL : 1 ≤ Dec.quo one (sqrt mx))
    (h : rangedAccept sqrt x y mn mx ip0 = some (ax, ay)) : 0 ≤ ax ∧ ax ≤ x ∧ 0 ≤ ay ∧ ay ≤ y := by
  unfold rangedAccept at h
  split at h
  · simp only [Option.some.injEq, Prod.mk.injEq] at h; omega
  · split at h
    · simp only [Option.some.injEq, Prod.mk.injEq] at h; omega
    · have hsl : sqrt mx ≠ 0 := by
        intro h0; rw [h0] at hL
        have : Dec.quo one 0 = 0 := by decide
        omega
      unfold quo? at h
      simp only at h
      generalize hA : sqrt ip0 - sqrt mn = A at h
      generalize hB : Dec.quo one (sqrt ip0) - Dec.quo one (sqrt mx) = B at *
      have hApos : 0 < A := by omega
      have hBpos : 0 < B := by omega
      have ho := one_pos'
      rw [if_neg (by omega), if_neg (by omega), if_neg hsl] at h
      simp only [Option.bind_eq_bind, Option.bind_some, hB] at h
      have hxo : 0 ≤ ofInt x := Int.mul_nonneg hx ho.le
      have hyo : 0 ≤ ofInt y := Int.mul_nonneg hy ho.le
      have hq := quo_nonneg_dec hxo hApos.le
      have hq2 := quo_nonneg_dec hyo hBpos.le
      have u1 := quo_upper hxo hApos
      have u4 := quo_upper hyo hBpos
      have hm1 := mul_nonneg_dec hq hBpos.le
      have hm2 := mul_nonneg_dec hq2 hApos.le
      have u2 := mul_upper hq hBpos.le
      have u5 := mul_upper hq2 hApos.le
      generalize Dec.quo (ofInt x) A = q at *
      generalize Dec.quo (ofInt y) B = q2 at *
      generalize Dec.mul q B = m1 at *
      generalize hm2e : Dec.mul q2 A = m2 at *
      obtain ⟨t1, t2⟩ := truncCeil' hm1
      obtain ⟨t3, t4⟩ := truncCeil' hm2
      have n1 : 0 ≤ truncateInt (ceil m1) := by
        by_contra hc
        have : truncateInt (ceil m1) * one ≤ (-1) * one := Int.mul_le_mul_of_nonneg_right (by omega) ho.le
        omega
      have n2 : 0 ≤ truncateInt (ceil m2) := by
        by_contra hc
        have : truncateInt (ceil m2) * one ≤ (-1) * one := Int.mul_le_mul_of_nonneg_right (by omega) ho.le
        omega
      split at h
      · rename_i hgt
        rw [if_neg (by omega)] at h
        simp only [Option.bind_some, hm2e] at h
        have h : some (truncateInt (ceil m2), y) = some (ax, ay) := h
        simp only [Option.some.injEq, Prod.mk.injEq] at h
        obtain ⟨rfl, rfl⟩ := h
        refine ⟨n2, ?_, hy, le_refl _⟩
        -- m1 ≥ y*one + 1
        have u3 : y * one + 1 ≤ m1 := by
          have : (y + 1) * one ≤ truncateInt (ceil m1) * one := Int.mul_le_mul_of_nonneg_right (by omega) ho.le
          nlinarith
        have hAB : A * B < one * one := by
          have w := quo_upper (a := one) (b := sqrt ip0) ho.le (by omega)
          have w1 : A * B ≤ sqrt ip0 * (Dec.quo one (sqrt ip0) - 1) := by
            apply mul_le_mul (by omega) (by omega) hBpos.le (by omega)
          nlinarith
        have hm : m2 ≤ x * one := by
          by_contra hc
          push Not at hc
          have hc : x * one + 1 ≤ m2 := hc
          unfold ofInt at u1 u4
          exact accept_arith ho hApos hBpos hAB u1 u2 u3 u4 u5 hc
        have : truncateInt (ceil m2) * one < (x + 1) * one := by nlinarith
        have := lt_of_mul_lt_mul_right this ho.le
        omega
      · have h : some (x, truncateInt (ceil m1)) = some (ax, ay) := h
        simp only [Option.some.injEq, Prod.mk.injEq] at h
        omega

end Verif.Amm

import Verif.Proofs.CheckedRanged
/-! Deposits and withdrawals with the size limits. -/
namespace Verif.Checked
open Verif Verif.Amm Verif.Dec

set_option exponentiation.threshold 400

theorem ofInt_zero {r : Int} : Dec.ofInt r = 0 ↔ r = 0 := by unfold Dec.ofInt one; omega

theorem abs_mulTruncate_le {a b A B C : Int} (ha : |a| ≤ A) (hb : |b| ≤ B) (h : A * B ≤ C * one) : |Dec.mulTruncate a b| ≤ C := by
  unfold Dec.mulTruncate
  rw [abs_tdiv, abs_mul, abs_of_pos one_pos']
  apply Int.ediv_le_of_le_mul one_pos'
  exact le_trans (mul_le_mul ha hb (abs_nonneg _) (le_trans (abs_nonneg _) ha)) h

theorem ck_some {a b : Int} (h : ck a = some b) : b = a := by
  unfold ck at h
  split at h <;> cases h
  rfl

theorem ckInt_some {a b : Int} (h : ckInt a = some b) : b = a := by
  unfold ckInt at h
  split at h <;> cases h
  rfl

theorem quoTruncate_some {a b q : Int} (h : quoTruncate a b = some q) : b ≠ 0 ∧ q = Dec.quoTruncate a b := by
  unfold quoTruncate at h
  split at h
  · cases h
  · exact ⟨by assumption, ck_some h⟩

theorem quo_some {a b q : Int} (h : quo a b = some q) : b ≠ 0 ∧ q = Dec.quo a b := by
  unfold quo at h
  split at h
  · cases h
  · exact ⟨by assumption, ck_some h⟩

theorem ratio_some {rx ry x y q : Int} (h : depositRatio rx ry x y = some q) : Amm.depositRatio rx ry x y = some q := by
  unfold depositRatio at h
  unfold Amm.depositRatio
  simp only [ofInt_zero] at h
  by_cases c1 : rx = 0
  · rw [if_pos c1] at h ⊢
    obtain ⟨h1, rfl⟩ := quoTruncate_some h
    rw [if_neg (fun e => h1 (ofInt_zero.2 e))]
  rw [if_neg c1] at h ⊢
  by_cases c2 : ry = 0
  · rw [if_pos c2] at h ⊢
    obtain ⟨h1, rfl⟩ := quoTruncate_some h
    rfl
  rw [if_neg c2] at h ⊢
  obtain ⟨a, ea, h⟩ := Option.bind_eq_some_iff.1 h
  obtain ⟨b, eb, rfl⟩ := Option.map_eq_some_iff.1 h
  obtain ⟨-, rfl⟩ := quoTruncate_some ea
  obtain ⟨-, rfl⟩ := quoTruncate_some eb
  rfl

/-- A deposit that is computed at all is computed exactly. -/
theorem deposit_some {rx ry ps x y : Int} {v : Int × Int × Int} (h : depositInner rx ry ps x y = some v) :
    Amm.deposit false rx ry ps x y = some v := by
  unfold depositInner at h
  simp only [Option.bind_eq_bind, Option.bind_eq_some_iff] at h
  obtain ⟨r, er, m, em, pc, ep, mp, emp, mx, ex, ax, eax, my, ey, ay, eay, h⟩ := h
  have h1 := ratio_some er
  have h2 := ck_some em
  have h3 := ckInt_some ep
  obtain ⟨h4, h4'⟩ := quo_some emp
  have h5 := ck_some ex
  have h6 := ckInt_some eax
  have h7 := ck_some ey
  have h8 := ckInt_some eay
  cases h
  unfold Amm.deposit quo?
  simp only [Bool.false_eq_true, if_false, Option.bind_eq_bind]
  rw [h1, Option.bind_some, if_neg h4, Option.bind_some, h6, h8, h5, h7, h4', h3, h2]
  rfl

theorem withdraw_some {rx ry ps pc fee : Int} {v : Int × Int} (hne : pc ≠ ps) (h : withdrawInner rx ry ps pc fee = some v) :
    Amm.withdraw false rx ry ps pc fee = some v := by
  unfold withdrawInner at h
  simp only [Option.bind_eq_bind, Option.bind_eq_some_iff] at h
  obtain ⟨r, er, m, em, x1, e1, x2, e2, x3, e3, y1, f1, y2, f2, y3, f3, h⟩ := h
  obtain ⟨h0, hr⟩ := quoTruncate_some er
  have hm := ck_some em
  have a1 := ck_some e1
  have a2 := ck_some e2
  have a3 := ckInt_some e3
  have b1 := ck_some f1
  have b2 := ck_some f2
  have b3 := ckInt_some f3
  cases h
  unfold Amm.withdraw
  rw [if_neg hne, if_neg (by decide), if_neg (fun e => h0 (ofInt_zero.2 e))]
  simp only
  rw [a3, a2, a1, b3, b2, b1, hm, hr]

/-- The ratio of a deposit. -/
theorem ratio_eq {rx ry x y : Int} (hx : 0 ≤ rx) (hy : 0 ≤ ry)
    (h1 : 0 ≤ x ∧ x ≤ 10 ^ 36) (h2 : 0 ≤ y ∧ y ≤ 10 ^ 36) (hne : rx ≠ 0 ∨ ry ≠ 0) :
    ∃ q, depositRatio rx ry x y = some q ∧ 0 ≤ q ∧ q ≤ 10 ^ 54 := by
  have key : ∀ a r : Int, 0 ≤ a ∧ a ≤ 10 ^ 36 → 1 ≤ r → ∃ q, quoTruncate (Dec.ofInt a) (Dec.ofInt r) = some q ∧ 0 ≤ q ∧ q ≤ 10 ^ 54 := by
    intro a r ha hr
    have n0 : Dec.ofInt r ≠ 0 := fun e => by have := ofInt_zero.1 e; omega
    obtain ⟨a0, a1⟩ := ofInt_abs ha.1 ha.2
    have q0 : 0 ≤ Dec.quoTruncate (Dec.ofInt a) (Dec.ofInt r) := by
      unfold Dec.quoTruncate
      exact Int.tdiv_nonneg (Int.mul_nonneg a0 one_pos'.le) (by unfold Dec.ofInt one; omega)
    have q1 : |Dec.quoTruncate (Dec.ofInt a) (Dec.ofInt r)| ≤ 10 ^ 54 := by
      apply abs_quoTruncate_le n0
      rw [abs_of_nonneg (show 0 ≤ Dec.ofInt r by unfold Dec.ofInt one; omega)]
      unfold Dec.ofInt one at *
      omega
    refine ⟨Dec.quoTruncate (Dec.ofInt a) (Dec.ofInt r), ?_, q0, by rwa [abs_of_nonneg q0] at q1⟩
    unfold quoTruncate
    rw [if_neg n0, ck_abs (le_trans q1 (by decide))]
  unfold depositRatio
  simp only [ofInt_zero]
  by_cases c1 : rx = 0
  · rw [if_pos c1]; exact key y ry h2 (by omega)
  rw [if_neg c1]
  by_cases c2 : ry = 0
  · rw [if_pos c2]; exact key x rx h1 (by omega)
  rw [if_neg c2]
  obtain ⟨q, e, q0, q1⟩ := key x rx h1 (by omega)
  obtain ⟨q', e', q0', q1'⟩ := key y ry h2 (by omega)
  exact ⟨min q q', by rw [e, e']; rfl, by omega, by omega⟩

theorem ceil_abs {a C : Int} (h0 : 0 ≤ a) (h : a ≤ C) : 0 ≤ Dec.ceil a ∧ Dec.ceil a ≤ C + one := by
  have hq : (0 : Int) ≤ a.tdiv one := Int.tdiv_nonneg h0 one_pos'.le
  have hq2 : a.tdiv one * one ≤ a := by
    rw [Int.tdiv_eq_ediv_of_nonneg h0]; exact Int.ediv_mul_le _ (by decide)
  unfold Dec.ceil
  simp only
  unfold one at *
  split <;> omega

/-- Deposits into pools of moderate size do not overflow. -/
theorem deposit_eq {rx ry ps x y : Int} (hx : 0 ≤ rx ∧ rx ≤ 10 ^ 36) (hy : 0 ≤ ry ∧ ry ≤ 10 ^ 36) (hps : 1 ≤ ps ∧ ps ≤ 10 ^ 36)
    (h1 : 0 ≤ x ∧ x ≤ 10 ^ 36) (h2 : 0 ≤ y ∧ y ≤ 10 ^ 36) (hne : rx ≠ 0 ∨ ry ≠ 0) : (depositInner rx ry ps x y).isSome := by
  obtain ⟨q, eq, q0, q1⟩ := ratio_eq hx.1 hy.1 h1 h2 hne
  obtain ⟨p0, p1⟩ := ofInt_abs (show 0 ≤ ps by omega) hps.2
  obtain ⟨x0, x1⟩ := ofInt_abs hx.1 hx.2
  obtain ⟨y0, y1⟩ := ofInt_abs hy.1 hy.2
  have hm : |Dec.mulTruncate (Dec.ofInt ps) q| ≤ 10 ^ 90 := abs_mulTruncate_le (B := 10 ^ 54) p1 (by rw [abs_of_nonneg q0]; exact q1) (by decide)
  have hm0 : 0 ≤ Dec.mulTruncate (Dec.ofInt ps) q := by
    unfold Dec.mulTruncate; exact Int.tdiv_nonneg (Int.mul_nonneg p0 q0) one_pos'.le
  have hm2 : Dec.mulTruncate (Dec.ofInt ps) q ≤ ps * q := by
    unfold Dec.mulTruncate Dec.ofInt
    rw [show ps * one * q = (ps * q) * one by ring, Int.mul_tdiv_cancel _ (by decide)]
  unfold depositInner
  rw [eq]
  simp only [Option.bind_eq_bind, Option.bind_some]
  unfold mulTruncate
  rw [ck_abs (le_trans hm (by decide)), Option.bind_some, truncateInt_eq (le_trans hm (by decide)), Option.bind_some]
  have hpc0 : 0 ≤ Dec.truncateInt (Dec.mulTruncate (Dec.ofInt ps) q) := Int.tdiv_nonneg hm0 one_pos'.le
  have hpc1 : Dec.ofInt (Dec.truncateInt (Dec.mulTruncate (Dec.ofInt ps) q)) ≤ ps * q := by
    generalize Dec.mulTruncate (Dec.ofInt ps) q = w at *
    unfold Dec.truncateInt Dec.ofInt
    rw [Int.tdiv_eq_ediv_of_nonneg hm0]
    have := Int.ediv_mul_le w (show one ≠ 0 by decide)
    omega
  generalize Dec.truncateInt (Dec.mulTruncate (Dec.ofInt ps) q) = pc at *
  have pcn : 0 ≤ Dec.ofInt pc := by unfold Dec.ofInt one; omega
  have psn : Dec.ofInt ps ≠ 0 := fun e => by have := ofInt_zero.1 e; omega
  have hmp : |Dec.quo (Dec.ofInt pc) (Dec.ofInt ps)| ≤ 10 ^ 54 := by
    apply abs_quo_le psn
    rw [abs_of_nonneg pcn, abs_of_nonneg p0]
    have e1 : ps * q ≤ ps * 10 ^ 54 := Int.mul_le_mul_of_nonneg_left q1 (by omega)
    unfold Dec.ofInt one at *
    omega
  have hmp0 := quo_nonneg_dec pcn p0
  unfold quo
  rw [if_neg psn, ck_abs (le_trans hmp (by decide)), Option.bind_some]
  generalize Dec.quo (Dec.ofInt pc) (Dec.ofInt ps) = mp at *
  have fin : ∀ r, 0 ≤ Dec.ofInt r → |Dec.ofInt r| ≤ 10 ^ 36 * one → mul (Dec.ofInt r) mp = some (Dec.mul (Dec.ofInt r) mp) ∧
      truncateInt (Dec.ceil (Dec.mul (Dec.ofInt r) mp)) = some (Dec.truncateInt (Dec.ceil (Dec.mul (Dec.ofInt r) mp))) := by
    intro r r0 r1
    have m := abs_mul_le (C := 10 ^ 90) r1 hmp (by decide)
    refine ⟨mul_eq m (by decide), ?_⟩
    have m0 : 0 ≤ Dec.mul (Dec.ofInt r) mp := chop_nonneg (Int.mul_nonneg r0 hmp0)
    rw [abs_of_nonneg m0] at m
    obtain ⟨c0, c1⟩ := ceil_abs m0 m
    exact truncateInt_eq (by rw [abs_of_nonneg c0]; unfold one at *; omega)
  obtain ⟨f1, f2⟩ := fin rx x0 x1
  obtain ⟨g1, g2⟩ := fin ry y0 y1
  rw [f1, Option.bind_some, f2, Option.bind_some, g1, Option.bind_some, g2, Option.bind_some]
  rfl

/-- Withdrawals never overflow. -/
theorem withdraw_eq {rx ry ps pc fee : Int} (hx : 0 ≤ rx ∧ rx ≤ 10 ^ 76) (hy : 0 ≤ ry ∧ ry ≤ 10 ^ 76) (hps : 1 ≤ ps) (hpc : 0 ≤ pc ∧ pc ≤ ps)
    (hf : 0 ≤ fee ∧ fee ≤ one) : (withdrawInner rx ry ps pc fee).isSome := by
  have psn : Dec.ofInt ps ≠ 0 := fun e => by have := ofInt_zero.1 e; omega
  obtain ⟨x0, x1⟩ := ofInt_abs hx.1 hx.2
  obtain ⟨y0, y1⟩ := ofInt_abs hy.1 hy.2
  have hp : |Dec.quoTruncate (Dec.ofInt pc) (Dec.ofInt ps)| ≤ one := by
    apply abs_quoTruncate_le psn
    unfold Dec.ofInt one
    rw [abs_of_nonneg (by omega), abs_of_nonneg (by omega)]
    omega
  have hm : |one - fee| ≤ one := by rw [abs_of_nonneg (by omega)]; omega
  have h94 : (10 : Int) ^ 76 * one = 10 ^ 94 := by decide
  rw [h94] at x1 y1
  have fin : ∀ r q, |r| ≤ 10 ^ 94 → |q| ≤ one → mulTruncate r q = some (Dec.mulTruncate r q) ∧ |Dec.mulTruncate r q| ≤ 10 ^ 94 := by
    intro r q hr hq
    have := abs_mulTruncate_le (C := 10 ^ 94) hr hq (le_refl _)
    exact ⟨ck_abs this, this⟩
  unfold withdrawInner
  unfold quoTruncate
  rw [if_neg psn, ck_abs (le_trans hp (by decide))]
  simp only [Option.bind_eq_bind, Option.bind_some]
  unfold sub
  rw [ck_abs (le_trans hm (by decide)), Option.bind_some]
  obtain ⟨a1, a2⟩ := fin _ _ x1 hp
  obtain ⟨b1, b2⟩ := fin _ _ y1 hp
  obtain ⟨c1, c2⟩ := fin _ _ a2 hm
  obtain ⟨d1, d2⟩ := fin _ _ b2 hm
  rw [a1, Option.bind_some, c1, Option.bind_some, truncateInt_eq c2, Option.bind_some, b1, Option.bind_some, d1, Option.bind_some,
    truncateInt_eq d2]
  rfl

end Verif.Checked

import Verif.Proofs.Checked
import Verif.Proofs.RangedSign
/-! Sizes of rounded results, and the pool amounts with the size limits. -/
namespace Verif.Checked
open Verif Verif.Amm Verif.Dec

set_option exponentiation.threshold 400

theorem ck_abs {a : Int} (h : |a| ≤ 10 ^ 94) : ck a = some a := by
  obtain ⟨h1, h2⟩ := abs_le.1 h
  exact ck_eq (by omega) (by omega)

theorem abs_chop_le {a C : Int} (h : |a| ≤ C * one) : |chopRound a| ≤ C := by
  obtain ⟨h1, h2⟩ := abs_le.1 h
  rcases le_total 0 a with h0 | h0
  · have := chop_mono_nn h0 h2
    rw [chop_int] at this
    have := chop_nonneg h0
    rw [abs_le]; constructor <;> omega
  · have := chop_mono_nn (show 0 ≤ -a by omega) (show -a ≤ C * one by omega)
    rw [chop_int, chop_neg] at this
    have := chop_nonneg (show 0 ≤ -a by omega)
    rw [chop_neg] at this
    rw [abs_le]; constructor <;> omega

theorem abs_mul_le {a b A B C : Int} (ha : |a| ≤ A) (hb : |b| ≤ B) (h : A * B ≤ C * one) : |Dec.mul a b| ≤ C := by
  apply abs_chop_le
  rw [abs_mul]
  exact le_trans (mul_le_mul ha hb (abs_nonneg _) (le_trans (abs_nonneg _) ha)) h

theorem abs_tdiv (a b : Int) : |a.tdiv b| = |a| / |b| := by
  rw [Int.abs_eq_natAbs, Int.natAbs_tdiv, Int.abs_eq_natAbs a, Int.abs_eq_natAbs b]
  norm_cast

theorem abs_quo_le {a b C : Int} (hb : b ≠ 0) (h : |a| * one ≤ C * |b|) : |Dec.quo a b| ≤ C := by
  apply abs_chop_le
  have hb' : 0 < |b| := abs_pos.2 hb
  have ho := one_pos'
  rw [abs_tdiv, abs_mul, abs_mul, abs_of_pos ho]
  apply Int.ediv_le_of_le_mul hb'
  have := Int.mul_le_mul_of_nonneg_right h ho.le
  linarith

/-- Division by at least one unit. -/
theorem abs_quo_le' {a b A : Int} (hb : b ≠ 0) (h : |a| ≤ A) : |Dec.quo a b| ≤ A * one := by
  apply abs_quo_le hb
  have hb' : 1 ≤ |b| := abs_pos.2 hb
  have h0 := abs_nonneg a
  have := one_pos'
  have : A * one * 1 ≤ A * one * |b| := Int.mul_le_mul_of_nonneg_left hb' (Int.mul_nonneg (by omega) this.le)
  nlinarith

theorem abs_quoTruncate_le {a b C : Int} (hb : b ≠ 0) (h : |a| * one ≤ C * |b|) : |Dec.quoTruncate a b| ≤ C := by
  unfold Dec.quoTruncate
  rw [abs_tdiv, abs_mul, abs_of_pos one_pos']
  exact Int.ediv_le_of_le_mul (abs_pos.2 hb) h

theorem abs_quoRoundUp_le {a b C : Int} (hb : b ≠ 0) (h : |a| * one ≤ C * |b|) : |Dec.quoRoundUp a b| ≤ C + 1 := by
  have := abs_quoTruncate_le hb h
  unfold Dec.quoTruncate at this
  unfold Dec.quoRoundUp
  simp only
  rw [abs_le] at *
  split <;> omega

theorem abs_add_le' {a b A B C : Int} (ha : |a| ≤ A) (hb : |b| ≤ B) (h : A + B ≤ C) : |a + b| ≤ C :=
  le_trans (abs_add_le a b) (by omega)

theorem abs_sub_le' {a b A B C : Int} (ha : |a| ≤ A) (hb : |b| ≤ B) (h : A + B ≤ C) : |a - b| ≤ C :=
  le_trans (abs_sub a b) (by omega)

/-- The integer part of a stored number is not too large. -/
theorem truncateInt_eq {a : Int} (h : |a| ≤ 10 ^ 94) : truncateInt a = some (Dec.truncateInt a) := by
  unfold truncateInt Dec.truncateInt
  have e : |a.tdiv one| ≤ 10 ^ 76 := by
    rw [abs_tdiv, abs_of_pos one_pos']
    apply Int.ediv_le_of_le_mul one_pos'
    unfold one; omega
  obtain ⟨h1, h2⟩ := abs_le.1 e
  exact ckInt_eq (by omega) (by omega)

theorem truncateInt_fits {a : Int} (h : fits a = true) : truncateInt a = some (Dec.truncateInt a) := by
  obtain ⟨h1, h2⟩ := fits_iff.1 h
  unfold truncateInt Dec.truncateInt
  have e : |a.tdiv one| ≤ 2 ^ 315 / one := by
    rw [abs_tdiv, abs_of_pos one_pos']
    exact Int.ediv_le_ediv one_pos' (abs_le.2 ⟨by omega, by omega⟩)
  obtain ⟨h1, h2⟩ := abs_le.1 e
  unfold one at *
  exact ckInt_eq (by omega) (by omega)

theorem add_eq {a b A B : Int} (ha : |a| ≤ A) (hb : |b| ≤ B) (h : A + B ≤ 10 ^ 94) : add a b = some (a + b) :=
  ck_abs (abs_add_le' ha hb h)
theorem sub_eq {a b A B : Int} (ha : |a| ≤ A) (hb : |b| ≤ B) (h : A + B ≤ 10 ^ 94) : sub a b = some (a - b) :=
  ck_abs (abs_sub_le' ha hb h)
theorem mul_eq {a b C : Int} (h : |Dec.mul a b| ≤ C) (hC : C ≤ 10 ^ 94) : mul a b = some (Dec.mul a b) := ck_abs (le_trans h hC)
theorem quo_eq {a b C : Int} (h : b ≠ 0 → |Dec.quo a b| ≤ C) (hC : C ≤ 10 ^ 94) : quo a b = quo? a b := by
  unfold quo quo?
  by_cases hb : b = 0
  · rw [if_pos hb, if_pos hb]
  · rw [if_neg hb, if_neg hb, ck_abs (le_trans (h hb) hC)]

theorem sqrt_abs {d A B : Int} (hd : |d| ≤ A) (hA : A ≤ 10 ^ 94) (hB0 : 0 ≤ B) (hB : A * one ≤ B * B) :
    sqrt d = some (approxSqrt d) ∧ |approxSqrt d| ≤ B + 1 := by
  obtain ⟨h1, h2⟩ := abs_le.1 hd
  refine ⟨sqrt_eq (fits_iff.2 ⟨by omega, by omega⟩), ?_⟩
  have key : ∀ d : Int, 0 ≤ d → d ≤ A → |approxSqrt d| ≤ B + 1 := by
    intro d h0 h
    obtain ⟨c0, c1, -⟩ := approxSqrt_close h0 (by omega)
    rw [abs_of_nonneg c0]
    by_cases hz : d = 0
    · subst hz; rw [show approxSqrt 0 = 0 by decide]; omega
    · obtain ⟨c1, -⟩ := c1 hz
      by_contra hc
      have e1 := mul_self_le_mul_self hB0 (show B ≤ approxSqrt d - 1 by omega)
      have := Int.mul_le_mul_of_nonneg_right h one_pos'.le
      omega
  rcases le_total 0 d with h | h
  · exact key d h h2
  · rcases eq_or_lt_of_le h with h | h
    · subst h; exact key 0 (by omega) h2
    have e : approxSqrt d = -approxSqrt (-d) := by
      unfold approxSqrt
      simp only
      rw [if_pos h, if_neg (show ¬ -d < 0 by omega)]
    rw [e, abs_neg]
    exact key (-d) (by omega) (by omega)

/-- The capped quotient never notices the size limits. -/
theorem cappedQuo_eq {dx p : Int} (hx : 0 ≤ dx) (hp : 0 ≤ p) : cappedQuo dx p = Amm.cappedQuo dx p := by
  unfold cappedQuo Amm.cappedQuo
  by_cases h0 : p = 0
  · rw [if_pos h0, if_pos h0]
  rw [if_neg h0, if_neg h0]
  simp only
  unfold quoTruncate
  rw [if_neg h0]
  by_cases hf : fits (Dec.quoTruncate dx p) = true
  · unfold ck
    rw [if_pos hf, Option.bind_some, truncateInt_fits hf]
  · unfold ck
    rw [if_neg hf]
    simp only [Option.bind_none]
    have hq : 0 ≤ Dec.quoTruncate dx p := by
      unfold Dec.quoTruncate
      exact Int.tdiv_nonneg (Int.mul_nonneg hx one_pos'.le) hp
    rw [fits_iff] at hf
    generalize Dec.quoTruncate dx p = q at *
    have : maxCoinAmount < Dec.truncateInt q := by
      unfold Dec.truncateInt
      rw [Int.tdiv_eq_ediv_of_nonneg hq]
      unfold one maxCoinAmount
      omega
    rw [if_pos this]

theorem mulInt_eq {a i C : Int} (h : |a * i| ≤ C) (hC : C ≤ 10 ^ 94) : mulInt a i = some (Dec.mulInt a i) := ck_abs (le_trans h hC)

theorem quo?_some {a b q : Int} (h : quo? a b = some q) : b ≠ 0 ∧ q = Dec.quo a b := by
  unfold quo? at h
  split at h
  · cases h
  · cases h; exact ⟨by assumption, rfl⟩

theorem ofInt_abs {r B : Int} (h0 : 0 ≤ r) (h1 : r ≤ B) : 0 ≤ Dec.ofInt r ∧ |Dec.ofInt r| ≤ B * one := by
  unfold Dec.ofInt
  have := Int.mul_nonneg h0 one_pos'.le
  refine ⟨this, ?_⟩
  rw [abs_of_nonneg this]
  exact Int.mul_le_mul_of_nonneg_right h1 one_pos'.le

theorem basic_price {p : Pool} (hr : p.range = none) (hx : 0 ≤ p.rx ∧ p.rx ≤ 10 ^ 40) : price p = p.price := by
  unfold price Pool.price
  rw [hr]
  simp only
  split
  · rfl
  · exact quo_eq (C := 10 ^ 40 * one * one) (fun h => abs_quo_le' h (ofInt_abs hx.1 hx.2).2) (by decide)

theorem basic_price_le {p : Pool} (hr : p.range = none) (hx : 0 ≤ p.rx ∧ p.rx ≤ 10 ^ 40) (hy : 0 ≤ p.ry) {pp : Int} (h : p.price = some pp) :
    0 ≤ pp ∧ pp ≤ 10 ^ 58 ∧ 2 * (pp * p.ry) ≤ 2 * Dec.ofInt p.rx + p.ry := by
  unfold Pool.price at h
  rw [hr] at h
  simp only at h
  split at h
  · cases h
  obtain ⟨h1, rfl⟩ := quo?_some h
  have hy1 : 1 ≤ p.ry := by omega
  have hx0 := (ofInt_abs hx.1 hx.2).1
  have hoy : 1 ≤ Dec.ofInt p.ry := by unfold Dec.ofInt one; omega
  obtain ⟨b1, -⟩ := quo_two hx0 hoy
  have b0 := quo_nonneg_dec hx0 (show 0 ≤ Dec.ofInt p.ry by omega)
  generalize Dec.quo (Dec.ofInt p.rx) (Dec.ofInt p.ry) = q at *
  unfold Dec.ofInt at *
  have e : 2 * (q * p.ry) ≤ 2 * (p.rx * one) + p.ry := by
    have : (2 * (q * p.ry)) * one ≤ (2 * (p.rx * one) + p.ry) * one := by linarith
    exact le_of_mul_le_mul_right this one_pos'
  refine ⟨b0, ?_, e⟩
  have e1 : (2 * q) * p.ry ≤ (2 * (p.rx * one) + 1) * p.ry := by
    have : 0 ≤ p.rx * one := by unfold one; omega
    nlinarith
  have := le_of_mul_le_mul_right e1 (by omega)
  unfold one at this
  omega

theorem basic_buyOver {p : Pool} (hr : p.range = none) (hx : 0 ≤ p.rx ∧ p.rx ≤ 10 ^ 40) (hy : 0 ≤ p.ry ∧ p.ry ≤ 10 ^ 40) {op : Int} (hp : 0 ≤ op) :
    buyAmountOver p op = p.buyAmountOver op := by
  unfold buyAmountOver Pool.buyAmountOver
  rw [basic_price hr hx]
  simp only
  cases h : p.price with
  | none => rfl
  | some pp =>
    obtain ⟨h0, h1, h2⟩ := basic_price_le hr hx hy.1 h
    simp only
    by_cases hge : (if op < p.floorPrice then p.floorPrice else op) ≥ pp
    · rw [if_pos hge, if_pos hge]
    rw [if_neg hge, if_neg hge, hr]
    simp only
    have hfl : p.floorPrice = minPoolPrice := by unfold Pool.floorPrice; rw [hr]
    rw [hfl] at hge ⊢
    have hm : (0 : Int) ≤ minPoolPrice := by decide
    obtain ⟨pr, e⟩ : ∃ pr, pr = if op < minPoolPrice then minPoolPrice else op := ⟨_, rfl⟩
    rw [← e] at hge ⊢
    have hpr : 0 ≤ pr := by rw [e]; split <;> omega
    obtain ⟨x0, x1⟩ := ofInt_abs hx.1 hx.2
    have hmul : |pr * p.ry| ≤ 10 ^ 60 := by
      rw [abs_of_nonneg (Int.mul_nonneg hpr hy.1)]
      have e1 : pr * p.ry ≤ pp * p.ry := Int.mul_le_mul_of_nonneg_right (by omega) hy.1
      rw [abs_of_nonneg x0] at x1
      unfold one at x1
      omega
    rw [mulInt_eq hmul (by decide)]
    simp only [Option.bind_eq_bind, Option.bind_some]
    unfold Dec.mulInt
    rw [sub_eq x1 hmul (by decide)]
    simp only [Option.bind_some]
    split
    · rfl
    · exact cappedQuo_eq (by omega) hp

theorem quoRoundUp_eq {a b C : Int} (hb : b ≠ 0) (h : |a| * one ≤ C * |b|) (hC : C + 1 ≤ 10 ^ 94) :
    quoRoundUp a b = some (Dec.quoRoundUp a b) := by
  unfold quoRoundUp
  rw [if_neg hb, ck_abs (le_trans (abs_quoRoundUp_le hb h) hC)]

theorem le_mul_abs {a b C : Int} (hb : b ≠ 0) (h : a ≤ C) (h0 : 0 ≤ C) : a ≤ C * |b| := by
  have hb' : 1 ≤ |b| := abs_pos.2 hb
  have := Int.mul_le_mul_of_nonneg_left hb' h0
  omega

theorem basic_sellUnder {p : Pool} (hr : p.range = none) (hx : 0 ≤ p.rx ∧ p.rx ≤ 10 ^ 40) (hy : 0 ≤ p.ry ∧ p.ry ≤ 10 ^ 40) {op : Int} :
    sellAmountUnder p op = p.sellAmountUnder op := by
  unfold sellAmountUnder Pool.sellAmountUnder
  rw [basic_price hr hx]
  simp only
  cases h : p.price with
  | none => rfl
  | some pp =>
    obtain ⟨h0, h1, h2⟩ := basic_price_le hr hx hy.1 h
    simp only
    generalize (if op > p.ceilPrice then p.ceilPrice else op) = pr
    by_cases hge : pr ≤ pp
    · rw [if_pos hge, if_pos hge]
    rw [if_neg hge, if_neg hge, if_neg (show pr ≠ 0 by omega), hr]
    simp only
    obtain ⟨x0, x1⟩ := ofInt_abs hx.1 hx.2
    obtain ⟨y0, y1⟩ := ofInt_abs hy.1 hy.2
    have hq : |Dec.ofInt p.rx| * one ≤ 10 ^ 77 * |pr| :=
      le_mul_abs (by omega) (by unfold one at *; omega) (by decide)
    have hq' := abs_quoRoundUp_le (by omega) hq
    rw [quoRoundUp_eq (by omega) hq (by decide)]
    simp only [Option.bind_eq_bind, Option.bind_some]
    rw [sub_eq y1 hq' (by decide)]
    simp only [Option.bind_some]
    rw [truncateInt_eq (abs_sub_le' y1 hq' (by decide))]
    rfl

/-- Roots of the reserves and their product. -/
theorem basic_roots {p : Pool} (hx : 0 ≤ p.rx ∧ p.rx ≤ 10 ^ 40) (hy : 0 ≤ p.ry ∧ p.ry ≤ 10 ^ 40) :
    sqrt (Dec.ofInt p.rx) = some (approxSqrt (Dec.ofInt p.rx)) ∧ sqrt (Dec.ofInt p.ry) = some (approxSqrt (Dec.ofInt p.ry)) ∧
    |Dec.mul (approxSqrt (Dec.ofInt p.rx)) (approxSqrt (Dec.ofInt p.ry))| ≤ 10 ^ 59 := by
  obtain ⟨x0, x1⟩ := ofInt_abs hx.1 hx.2
  obtain ⟨y0, y1⟩ := ofInt_abs hy.1 hy.2
  obtain ⟨a1, a2⟩ := sqrt_abs x1 (by decide) (B := 10 ^ 38) (by decide) (by decide)
  obtain ⟨b1, b2⟩ := sqrt_abs y1 (by decide) (B := 10 ^ 38) (by decide) (by decide)
  exact ⟨a1, b1, abs_mul_le a2 b2 (by decide)⟩

theorem basic_buyTo {p : Pool} (hr : p.range = none) (hx : 0 ≤ p.rx ∧ p.rx ≤ 10 ^ 40) (hy : 0 ≤ p.ry ∧ p.ry ≤ 10 ^ 40) {op : Int} (hp : 0 ≤ op) :
    buyAmountTo p op = p.buyAmountTo approxSqrt op := by
  unfold buyAmountTo Pool.buyAmountTo
  rw [basic_price hr hx]
  simp only
  cases h : p.price with
  | none => rfl
  | some pp =>
    obtain ⟨h0, h1, h2⟩ := basic_price_le hr hx hy.1 h
    simp only
    by_cases hge : (if op < p.floorPrice then p.floorPrice else op) ≥ pp
    · rw [if_pos hge, if_pos hge]
    rw [if_neg hge, if_neg hge, hr]
    simp only
    have hfl : p.floorPrice = minPoolPrice := by unfold Pool.floorPrice; rw [hr]
    rw [hfl] at hge ⊢
    have hm : (0 : Int) ≤ minPoolPrice := by decide
    obtain ⟨pr, e⟩ : ∃ pr, pr = if op < minPoolPrice then minPoolPrice else op := ⟨_, rfl⟩
    rw [← e] at hge ⊢
    have hpr : 0 ≤ pr := by rw [e]; split <;> omega
    obtain ⟨x0, x1⟩ := ofInt_abs hx.1 hx.2
    obtain ⟨rx, ry, rk⟩ := basic_roots hx hy
    obtain ⟨c1, c2⟩ := sqrt_abs (d := pr) (A := 10 ^ 58) (abs_le.2 ⟨by omega, by omega⟩) (by decide) (B := 10 ^ 38) (by decide) (by decide)
    rw [rx, ry, c1]
    simp only [Option.bind_eq_bind, Option.bind_some]
    rw [mul_eq rk (by decide)]
    simp only [Option.bind_some]
    have m := abs_mul_le (C := 10 ^ 80) c2 rk (by decide)
    rw [mul_eq m (by decide)]
    simp only [Option.bind_some]
    rw [sub_eq x1 m (by decide)]
    simp only [Option.bind_some]
    split
    · rfl
    · exact cappedQuo_eq (by omega) hp

theorem basic_sellTo {p : Pool} (hr : p.range = none) (hx : 0 ≤ p.rx ∧ p.rx ≤ 10 ^ 40) (hy : 0 ≤ p.ry ∧ p.ry ≤ 10 ^ 40) {op : Int} :
    sellAmountTo p op = p.sellAmountTo approxSqrt op := by
  unfold sellAmountTo Pool.sellAmountTo
  rw [basic_price hr hx]
  simp only
  cases h : p.price with
  | none => rfl
  | some pp =>
    obtain ⟨h0, h1, h2⟩ := basic_price_le hr hx hy.1 h
    simp only
    obtain ⟨pr, e⟩ : ∃ pr, pr = if op > p.ceilPrice then p.ceilPrice else op := ⟨_, rfl⟩
    rw [← e]
    by_cases hge : pr ≤ pp
    · rw [if_pos hge, if_pos hge]
    rw [if_neg hge, if_neg hge, hr]
    have hfl : p.ceilPrice = maxPoolPrice := by unfold Pool.ceilPrice; rw [hr]
    have hle : pr ≤ maxPoolPrice := by rw [e, hfl]; split <;> omega
    have hmx : maxPoolPrice ≤ 10 ^ 58 := by decide
    simp only
    obtain ⟨y0, y1⟩ := ofInt_abs hy.1 hy.2
    obtain ⟨rx, ry, rk⟩ := basic_roots hx hy
    obtain ⟨c1, c2⟩ := sqrt_abs (d := pr) (A := 10 ^ 58) (abs_le.2 ⟨by omega, by omega⟩) (by decide) (B := 10 ^ 38) (by decide) (by decide)
    rw [rx, ry, c1]
    simp only [Option.bind_eq_bind, Option.bind_some]
    rw [mul_eq rk (by decide)]
    simp only [Option.bind_some]
    by_cases hs : approxSqrt pr = 0
    · rw [if_pos hs]
      unfold quo
      rw [if_pos hs]
      rfl
    rw [if_neg hs]
    have m := abs_quo_le' hs rk
    unfold quo
    rw [if_neg hs, ck_abs (le_trans m (by decide))]
    simp only [Option.bind_some]
    rw [sub_eq y1 m (by decide)]
    simp only [Option.bind_some]
    rw [truncateInt_eq (abs_sub_le' y1 m (by decide))]
    rfl

end Verif.Checked

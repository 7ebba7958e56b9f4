import Verif.Proofs.CheckedPool
/-! Ranged pools with the size limits. -/
namespace Verif.Checked
open Verif Verif.Amm Verif.Dec

set_option exponentiation.threshold 400

/-- The price a factor gives, without limits. -/
def priceFor' (x y k M L : Int) : Option Int := quo? (x + Dec.mul k M) (y + Dec.quo k L)

/-- The choice of the factor, without limits. -/
def sqrtK' (x y P M L : Int) : Option Int :=
  if P = L then if P = M then none else quo? x (P - M)
  else if P = M then (quo? one P).bind fun ip => (quo? one L).bind fun il => quo? y (ip - il)
  else (quo? x (P - M)).bind fun k => (quo? one P).bind fun ip => (quo? one L).bind fun il => (quo? y (ip - il)).bind fun k2 =>
    (priceFor' x y k M L).bind fun p1 => (priceFor' x y k2 M L).bind fun p2 =>
      some (if ((Dec.mul P P - p1).natAbs : Int) > ((Dec.mul P P - p2).natAbs : Int) then k2 else k)

theorem derive_eq (rx ry m l : Int) :
    Amm.deriveTranslation approxSqrt rx ry m l =
      (Amm.deriveSqrtP approxSqrt rx ry (approxSqrt m) (approxSqrt l)).bind fun P =>
        (sqrtK' (ofInt rx) (ofInt ry) P (approxSqrt m) (approxSqrt l)).bind fun k =>
          (quo? k (approxSqrt l)).bind fun tY => some (Dec.mul k (approxSqrt m), tY) := by
  unfold Amm.deriveTranslation
  simp only [Option.bind_eq_bind]
  congr 1
  funext P
  unfold sqrtK' priceFor'
  by_cases h1 : P = approxSqrt l
  · by_cases h2 : P = approxSqrt m
    · simp [← h1, ← h2]
    · simp [← h1, h2, Option.bind_map]
  · by_cases h2 : P = approxSqrt m
    · simp [← h2, h1, Option.bind_assoc]
    · simp [h1, h2, Option.bind_map, Option.bind_assoc]

/-- The roots of the price limits. -/
structure Limits (M L : Int) : Prop where
  lo : 31000000000 ≤ M
  le : M ≤ L
  hi : L ≤ 10 ^ 28 + 1

theorem limits_of {m l : Int} (h1 : 1000 ≤ m) (hml : m ≤ l) (h2 : l ≤ 10 ^ 38) : Limits (approxSqrt m) (approxSqrt l) :=
  ⟨(price_root h1 (by omega)).1, approxSqrt_mono (by omega) hml h2, (price_root (by omega) h2).2⟩

/-- An upper bound for the root of the price. -/
theorem root_upper {M L s : Int} (hM : 1 ≤ M) (hML : M ≤ L) (hs : 1 ≤ s)
    (hb : Dec.mul (Dec.quo M s - Dec.quo s L) (Dec.quo M s - Dec.quo s L) + 4 * one < 2 ^ 315) :
    Dec.mul ((Dec.quo M s - Dec.quo s L + approxSqrt (Dec.mul (Dec.quo M s - Dec.quo s L) (Dec.quo M s - Dec.quo s L) + 4 * one)).tdiv 2) s
      ≤ M + 2 * s + 1 := by
  have ho := one_pos'
  have hv := quo_nonneg_dec (a := s) (b := L) (by omega) (by omega)
  have hu := quo_nonneg_dec (a := M) (b := s) (by omega) (by omega)
  obtain ⟨u1, -⟩ := quo_two (d := M) (g := s) (by omega) hs
  generalize Dec.quo M s = u at *
  generalize Dec.quo s L = v at *
  have ha : u - v ≤ u := by omega
  generalize u - v = a at *
  obtain ⟨m1, m2⟩ := mul_two (mul_self_nonneg a)
  have hm0 : 0 ≤ Dec.mul a a := chop_nonneg (mul_self_nonneg a)
  generalize Dec.mul a a = w at *
  obtain ⟨r0, r1, -⟩ := approxSqrt_close (d := w + 4 * one) (by omega) hb
  obtain ⟨r1, r2⟩ := r1 (by omega)
  generalize approxSqrt (w + 4 * one) = r at *
  have hr : r ≤ |a| + 2 * one + 2 := by
    by_contra hc
    have e1 := mul_self_le_mul_self (show 0 ≤ |a| + 2 * one + 1 by have := abs_nonneg a; omega) (show |a| + 2 * one + 1 ≤ r - 1 by omega)
    have e2 : |a| * |a| = a * a := abs_mul_abs_self a
    have e3 := mul_nonneg (abs_nonneg a) ho.le
    nlinarith [abs_nonneg a]
  have hab : a + |a| ≤ 2 * u := by
    rcases abs_cases a with ⟨e, -⟩ | ⟨e, -⟩ <;> rw [e] <;> omega
  have hf : (a + r).tdiv 2 ≤ u + one + 1 := by
    rcases le_or_gt 0 (a + r) with h | h
    · rw [Int.tdiv_eq_ediv_of_nonneg h]; omega
    · have e : (a + r).tdiv 2 = -((-(a + r)) / 2) := by
        rw [← Int.tdiv_eq_ediv_of_nonneg (by omega), Int.neg_tdiv, neg_neg]
      omega
  generalize (a + r).tdiv 2 = f at *
  rcases le_or_gt 0 f with h | h
  · obtain ⟨p1, p2⟩ := mul_two (mul_nonneg h (show 0 ≤ s by omega))
    have e1 : f * s ≤ (u + one + 1) * s := Int.mul_le_mul_of_nonneg_right hf (by omega)
    generalize Dec.mul f s = p at *
    have e2 : (2 * p) * one ≤ (2 * (M + 2 * s + 1)) * one := by
      have : (3 : Int) ≤ one := by decide
      nlinarith
    have := le_of_mul_le_mul_right e2 ho
    omega
  · have : Dec.mul f s = -Dec.mul (-f) s := by rw [mul_neg_left, neg_neg]
    have : 0 ≤ Dec.mul (-f) s := chop_nonneg (mul_nonneg (by omega) (by omega))
    omega

theorem deriveSqrtP_eq {rx ry M L : Int} (hx : 0 ≤ rx ∧ rx ≤ 10 ^ 36) (hy : 0 ≤ ry ∧ ry ≤ 10 ^ 36) (h : Limits M L) :
    deriveSqrtP rx ry M L = Amm.deriveSqrtP approxSqrt rx ry M L ∧
    ∀ P, Amm.deriveSqrtP approxSqrt rx ry M L = some P → 0 ≤ P ∧ P ≤ 3 * 10 ^ 36 := by
  obtain ⟨hM, hML, hL⟩ := h
  unfold deriveSqrtP Amm.deriveSqrtP
  simp only
  by_cases c1 : Dec.ofInt rx = 0
  · rw [if_pos c1, if_pos c1]
    exact ⟨rfl, fun P e => by cases e; omega⟩
  rw [if_neg c1, if_neg c1]
  by_cases c2 : Dec.ofInt ry = 0
  · rw [if_pos c2, if_pos c2]
    exact ⟨rfl, fun P e => by cases e; omega⟩
  rw [if_neg c2, if_neg c2]
  have hx1 : 1 ≤ rx := by
    rcases eq_or_lt_of_le hx.1 with e | e
    · rw [← e] at c1; exact absurd rfl c1
    · exact e
  have hy1 : 1 ≤ ry := by
    rcases eq_or_lt_of_le hy.1 with e | e
    · rw [← e] at c2; exact absurd rfl c2
    · exact e
  have bnd : ∀ a b : Int, 1 ≤ a → a ≤ 10 ^ 36 → 1 ≤ b → |Dec.quo (Dec.ofInt a) (Dec.ofInt b)| ≤ 10 ^ 54 := by
    intro a b h1 h2 h3
    apply abs_quo_le (by unfold Dec.ofInt one; omega)
    unfold Dec.ofInt one
    rw [abs_of_nonneg (by omega), abs_of_nonneg (by omega)]
    omega
  have hz := bnd rx ry hx1 hx.2 hy1
  have hz' := bnd ry rx hy1 hy.2 hx1
  unfold quo
  rw [if_neg c2, ck_abs (le_trans hz (by decide))]
  simp only [Option.bind_eq_bind, Option.bind_some]
  by_cases c3 : Dec.quo (Dec.ofInt rx) (Dec.ofInt ry) = 0
  · rw [if_pos c3, if_pos c3]
    exact ⟨rfl, fun P e => by cases e; omega⟩
  rw [if_neg c3, if_neg c3, if_neg c1, ck_abs (le_trans hz' (by decide))]
  simp only [Option.bind_some]
  by_cases c4 : Dec.quo (Dec.ofInt ry) (Dec.ofInt rx) = 0
  · rw [if_pos c4, if_pos c4]
    exact ⟨rfl, fun P e => by cases e; omega⟩
  rw [if_neg c4, if_neg c4]
  have hz0 : 0 ≤ Dec.quo (Dec.ofInt rx) (Dec.ofInt ry) := quo_nonneg_dec (by unfold Dec.ofInt one; omega) (by unfold Dec.ofInt one; omega)
  generalize Dec.quo (Dec.ofInt rx) (Dec.ofInt ry) = z at *
  obtain ⟨s1, s2⟩ := sqrt_abs hz (by decide) (B := 10 ^ 36) (by decide) (by decide)
  have s3 : 1 ≤ approxSqrt z := ((approxSqrt_close hz0 (by rw [abs_of_nonneg hz0] at hz; omega)).2.1 c3).2
  rw [s1]
  simp only [Option.bind_some]
  generalize approxSqrt z = s at *
  have ru := root_upper (M := M) (L := L) (s := s) (by omega) hML s3
  have rl := (root_error (M := M) (L := L) (s := s) (by omega) hML s3).1
  rw [abs_of_nonneg (show 0 ≤ s by omega)] at s2
  have hu : |Dec.quo M s| ≤ 2 * 10 ^ 46 := by
    apply abs_quo_le (by omega)
    rw [abs_of_nonneg (by omega), abs_of_nonneg (by omega)]
    unfold one; omega
  have hv : |Dec.quo s L| ≤ 10 ^ 45 := by
    apply abs_quo_le (by omega)
    rw [abs_of_nonneg (by omega), abs_of_nonneg (by omega)]
    unfold one; omega
  rw [if_neg (show s ≠ 0 by omega), if_neg (show L ≠ 0 by omega), ck_abs (le_trans hu (by decide)), ck_abs (le_trans hv (by decide))]
  unfold quo?
  rw [if_neg (show s ≠ 0 by omega), if_neg (show L ≠ 0 by omega)]
  simp only [Option.bind_some]
  rw [sub_eq hu hv (by decide)]
  have ha := abs_sub_le' (C := 3 * 10 ^ 46) hu hv (by decide)
  generalize Dec.quo M s - Dec.quo s L = a at *
  simp only [Option.bind_some]
  have ha2 := abs_mul_le (C := 10 ^ 76) ha ha (by decide)
  have h4 : |4 * one| ≤ 10 ^ 20 := by decide
  rw [mul_eq ha2 (by decide)]
  simp only [Option.bind_some]
  rw [add_eq ha2 h4 (by decide)]
  simp only [Option.bind_some]
  have ha4 := abs_add_le' (C := 10 ^ 77) ha2 h4 (by decide)
  obtain ⟨q1, q2⟩ := sqrt_abs ha4 (by decide) (B := 10 ^ 48) (by decide) (by decide)
  specialize ru (by rw [abs_le] at ha4; omega)
  rw [q1]
  simp only [Option.bind_some]
  rw [add_eq ha q2 (by decide)]
  simp only [Option.bind_some]
  have ht := abs_add_le' (C := 10 ^ 49) ha q2 (by decide)
  have ht2 : |(a + approxSqrt (Dec.mul a a + 4 * one)).tdiv 2| ≤ 10 ^ 49 := by
    rw [abs_tdiv]
    exact le_trans (Int.ediv_le_self _ (abs_nonneg _)) ht
  have hs' : |s| ≤ 10 ^ 36 + 1 := by rw [abs_of_nonneg (by omega)]; exact s2
  refine ⟨mul_eq (abs_mul_le (C := 10 ^ 70) ht2 hs' (by decide)) (by decide), fun P e => ?_⟩
  cases e
  exact ⟨rl, by omega⟩

theorem abs_quo_low {k L : Int} (hL : 1 ≤ L) : |k| * one ≤ (|Dec.quo k L| + 1) * L := by
  have key : ∀ k : Int, 0 ≤ k → k * one ≤ (Dec.quo k L + 1) * L := by
    intro k hk
    have := quo_low hk hL
    linarith
  rcases le_total 0 k with h | h
  · rw [abs_of_nonneg h, abs_of_nonneg (quo_nonneg_dec h (by omega))]
    exact key k h
  · have e : Dec.quo k L = -Dec.quo (-k) L := by rw [quo_neg_left, neg_neg]
    rw [abs_of_nonpos h, e, abs_neg, abs_of_nonneg (quo_nonneg_dec (by omega) (by omega))]
    exact key (-k) (by omega)

/-- Sizes for a factor. -/
theorem factor_sizes {x y k M L : Int} (hx : |x| ≤ 10 ^ 54) (hy : |y| ≤ 10 ^ 54) (hk : |k| ≤ 10 ^ 72) (h : Limits M L) :
    |Dec.mul k M| ≤ 2 * 10 ^ 82 ∧ |Dec.quo k L| ≤ 10 ^ 80 ∧
    (y + Dec.quo k L ≠ 0 → |Dec.quo (x + Dec.mul k M) (y + Dec.quo k L)| ≤ 10 ^ 93) := by
  obtain ⟨hM, hML, hL⟩ := h
  have aM : |M| ≤ 10 ^ 28 + 1 := by rw [abs_of_nonneg (by omega)]; omega
  have h1 : |Dec.mul k M| ≤ 2 * 10 ^ 82 := abs_mul_le hk aM (by decide)
  have h2 : |Dec.quo k L| ≤ 10 ^ 80 := by
    apply abs_quo_le (by omega)
    rw [abs_of_nonneg (show 0 ≤ L by omega)]
    unfold one; omega
  refine ⟨h1, h2, fun hd => ?_⟩
  have hlow := abs_quo_low (k := k) (L := L) (by omega)
  have hd1 : 1 ≤ |y + Dec.quo k L| := abs_pos.2 hd
  have htri : |Dec.quo k L| ≤ |y + Dec.quo k L| + |y| := by
    have := abs_sub (y + Dec.quo k L) y
    rwa [add_sub_cancel_left] at this
  apply abs_quo_le hd
  rcases le_or_gt (2 * 10 ^ 54) |Dec.quo k L| with c | c
  · have hn := abs_add_le' (C := 10 ^ 83) hx h1 (by decide)
    generalize |x + Dec.mul k M| = n at *
    generalize |y + Dec.quo k L| = d at *
    unfold one
    omega
  · have hk' : |k| ≤ 3 * 10 ^ 64 := by
      have e : (|Dec.quo k L| + 1) * L ≤ (2 * 10 ^ 54) * (10 ^ 28 + 1) := mul_le_mul (by omega) hL (by omega) (by norm_num)
      unfold one at hlow
      omega
    have h1' : |Dec.mul k M| ≤ 4 * 10 ^ 74 := abs_mul_le hk' aM (by decide)
    have hn := abs_add_le' (C := 5 * 10 ^ 74) hx h1' (by decide)
    generalize |x + Dec.mul k M| = n at *
    generalize |y + Dec.quo k L| = d at *
    unfold one
    omega

theorem priceFor_eq {x y k M L : Int} (hx : |x| ≤ 10 ^ 54) (hy : |y| ≤ 10 ^ 54) (hk : |k| ≤ 10 ^ 72) (h : Limits M L) :
    priceFor x y k M L = priceFor' x y k M L ∧ ∀ p, priceFor' x y k M L = some p → |p| ≤ 10 ^ 93 := by
  obtain ⟨s1, s2, s3⟩ := factor_sizes hx hy hk h
  have hL : L ≠ 0 := by have := h.lo; have := h.le; omega
  unfold priceFor priceFor'
  rw [mul_eq s1 (by decide)]
  simp only [Option.bind_eq_bind, Option.bind_some]
  rw [add_eq hx s1 (by decide)]
  simp only [Option.bind_some]
  unfold quo
  rw [if_neg hL, ck_abs (le_trans s2 (by decide))]
  simp only [Option.bind_some]
  rw [add_eq hy s2 (by decide)]
  simp only [Option.bind_some]
  refine ⟨quo_eq s3 (by decide), fun p e => ?_⟩
  obtain ⟨e1, rfl⟩ := quo?_some e
  exact s3 e1

theorem quo_eq' {a b A : Int} (h : |a| ≤ A) (hA : A * one ≤ 10 ^ 94) : quo a b = quo? a b :=
  quo_eq (fun hb => abs_quo_le' hb h) hA

theorem quo?_abs {a b q A : Int} (h : |a| ≤ A) (e : quo? a b = some q) : |q| ≤ A * one := by
  obtain ⟨hb, rfl⟩ := quo?_some e
  exact abs_quo_le' hb h

theorem bind_congr' {α β : Type} {o : Option α} {f g : α → Option β} (h : ∀ a, o = some a → f a = g a) : o.bind f = o.bind g := by
  cases o with
  | none => rfl
  | some a => exact h a rfl

theorem sqrtK_eq {x y P M L : Int} (hx : |x| ≤ 10 ^ 54) (hy : |y| ≤ 10 ^ 54) (hP : |P| ≤ 3 * 10 ^ 36) (h : Limits M L) :
    deriveSqrtK x y P M L = sqrtK' x y P M L ∧ ∀ k, sqrtK' x y P M L = some k → |k| ≤ 10 ^ 72 := by
  have hM1 : |M| ≤ 10 ^ 29 := by have := h.lo; have := h.le; have := h.hi; rw [abs_of_nonneg (by omega)]; omega
  have h1 : |one| ≤ 10 ^ 18 := by decide
  have c72 : (10 : Int) ^ 54 * one ≤ 10 ^ 72 := by decide
  unfold deriveSqrtK sqrtK'
  by_cases c1 : P = L
  · rw [if_pos c1, if_pos c1]
    by_cases c2 : P = M
    · rw [if_pos c2, if_pos c2]; exact ⟨rfl, fun _ e => by cases e⟩
    · rw [if_neg c2, if_neg c2, sub_eq hP hM1 (by decide), Option.bind_some, quo_eq' hx (by decide)]
      exact ⟨rfl, fun k e => le_trans (quo?_abs hx e) c72⟩
  rw [if_neg c1, if_neg c1]
  have q1 : ∀ q, quo one q = quo? one q := fun q => quo_eq' h1 (by decide)
  have q2 : ∀ q, quo y q = quo? y q := fun q => quo_eq' hy (by decide)
  have q3 : ∀ q, quo x q = quo? x q := fun q => quo_eq' hx (by decide)
  have sb : ∀ {ip il}, quo? one P = some ip → quo? one L = some il → sub ip il = some (ip - il) := fun e1 e2 =>
    sub_eq (quo?_abs h1 e1) (quo?_abs h1 e2) (by decide)
  by_cases c2 : P = M
  · rw [if_pos c2, if_pos c2]
    simp only [Option.bind_eq_bind, q1, q2]
    refine ⟨bind_congr' fun ip e1 => bind_congr' fun il e2 => by rw [sb e1 e2]; rfl, fun k e => ?_⟩
    simp only [Option.bind_eq_some_iff] at e
    obtain ⟨ip, -, il, -, e⟩ := e
    exact le_trans (quo?_abs hy e) c72
  · rw [if_neg c2, if_neg c2]
    simp only [Option.bind_eq_bind, q1, q2, q3]
    rw [sub_eq hP hM1 (by decide), Option.bind_some]
    have hpp := abs_mul_le (C := 10 ^ 56) hP hP (by decide)
    refine ⟨bind_congr' fun k e0 => bind_congr' fun ip e1 => bind_congr' fun il e2 => ?_, fun k e => ?_⟩
    · rw [sb e1 e2, Option.bind_some]
      refine bind_congr' fun k2 e3 => ?_
      rw [mul_eq hpp (by decide), Option.bind_some]
      obtain ⟨f1, f2⟩ := priceFor_eq hx hy (le_trans (quo?_abs hx e0) c72) h
      obtain ⟨g1, g2⟩ := priceFor_eq hx hy (le_trans (quo?_abs hy e3) c72) h
      rw [f1, g1]
      refine bind_congr' fun p1 e4 => bind_congr' fun p2 e5 => ?_
      rw [sub_eq hpp (f2 p1 e4) (by decide), sub_eq hpp (g2 p2 e5) (by decide)]
      rfl
    · simp only [Option.bind_eq_some_iff] at e
      obtain ⟨k1, e0, ip, -, il, -, k2, e3, p1, -, p2, -, e⟩ := e
      simp only [Option.some.injEq] at e
      rw [← e]
      split
      · exact le_trans (quo?_abs hy e3) c72
      · exact le_trans (quo?_abs hx e0) c72

/-- The translation of a pool with moderate reserves is computed without overflow. -/
theorem derive_checked {rx ry m l : Int} (hx : 0 ≤ rx ∧ rx ≤ 10 ^ 36) (hy : 0 ≤ ry ∧ ry ≤ 10 ^ 36) (h1 : 1000 ≤ m) (hml : m ≤ l) (h2 : l ≤ 10 ^ 38) :
    deriveTranslation rx ry m l = Amm.deriveTranslation approxSqrt rx ry m l ∧
    ∀ t, Amm.deriveTranslation approxSqrt rx ry m l = some t → ∃ k, |k| ≤ 10 ^ 72 ∧
      t = (Dec.mul k (approxSqrt m), Dec.quo k (approxSqrt l)) := by
  have hl := limits_of h1 hml h2
  have e36 : (10 : Int) ^ 36 * one = 10 ^ 54 := by decide
  have x1 := (ofInt_abs hx.1 hx.2).2
  have y1 := (ofInt_abs hy.1 hy.2).2
  rw [e36] at x1 y1
  obtain ⟨p1, p2⟩ := deriveSqrtP_eq hx hy hl
  rw [derive_eq]
  unfold deriveTranslation
  rw [sqrt_eq (fits_iff.2 ⟨by omega, by omega⟩), sqrt_eq (fits_iff.2 ⟨by omega, by omega⟩)]
  simp only [Option.bind_eq_bind, Option.bind_some]
  rw [p1]
  refine ⟨bind_congr' fun P e => ?_, fun t e => ?_⟩
  · obtain ⟨P0, P1⟩ := p2 P e
    obtain ⟨k1, k2⟩ := sqrtK_eq x1 y1 (P := P) (by rw [abs_of_nonneg P0]; exact P1) hl
    rw [k1]
    refine bind_congr' fun k ek => ?_
    obtain ⟨s1, s2, -⟩ := factor_sizes x1 y1 (k2 k ek) hl
    rw [mul_eq s1 (by decide), Option.bind_some, quo_eq (fun _ => s2) (by decide)]
  · simp only [Option.bind_eq_some_iff] at e
    obtain ⟨P, e, k, ek, tY, et, e'⟩ := e
    obtain ⟨P0, P1⟩ := p2 P e
    obtain ⟨k1, k2⟩ := sqrtK_eq x1 y1 (P := P) (by rw [abs_of_nonneg P0]; exact P1) hl
    obtain ⟨-, rfl⟩ := quo?_some et
    cases e'
    exact ⟨k, k2 k ek, rfl⟩

theorem newRanged_checked {rx ry ps m l : Int} (hx : 0 ≤ rx ∧ rx ≤ 10 ^ 36) (hy : 0 ≤ ry ∧ ry ≤ 10 ^ 36) (h1 : 1000 ≤ m) (hml : m ≤ l)
    (h2 : l ≤ 10 ^ 38) : newRangedPool rx ry ps m l = Amm.newRangedPool approxSqrt rx ry ps m l := by
  obtain ⟨d1, d2⟩ := derive_checked hx hy h1 hml h2
  have e36 : (10 : Int) ^ 36 * one = 10 ^ 54 := by decide
  have x1 := (ofInt_abs hx.1 hx.2).2
  have y1 := (ofInt_abs hy.1 hy.2).2
  rw [e36] at x1 y1
  unfold newRangedPool Amm.newRangedPool
  rw [d1]
  simp only [Option.bind_eq_bind]
  refine bind_congr' fun t e => ?_
  obtain ⟨k, hk, rfl⟩ := d2 t e
  obtain ⟨s1, s2, -⟩ := factor_sizes x1 y1 hk (limits_of h1 hml h2)
  rw [add_eq x1 s1 (by decide), add_eq y1 s2 (by decide)]
  rfl

theorem abs_quo_high {k L : Int} (hL : L ≠ 0) : 2 * (|Dec.quo k L| * |L|) ≤ 2 * (|k| * one) + |L| ∧ |k| * one ≤ (|Dec.quo k L| + 1) * |L| := by
  have key : ∀ k L : Int, 0 ≤ k → 1 ≤ L → 2 * (|Dec.quo k L| * L) ≤ 2 * (k * one) + L ∧ k * one ≤ (|Dec.quo k L| + 1) * L := by
    intro k L hk hL
    have h1 := (quo_two hk hL).1
    have h2 := abs_quo_low (k := k) hL
    rw [abs_of_nonneg (quo_nonneg_dec hk (by omega))] at *
    rw [abs_of_nonneg hk] at h2
    exact ⟨h1, h2⟩
  have e : ∀ k L : Int, |Dec.quo k L| = |Dec.quo (|k|) (|L|)| := by
    intro k L
    rcases abs_cases k with ⟨e1, -⟩ | ⟨e1, -⟩ <;> rcases abs_cases L with ⟨e2, -⟩ | ⟨e2, -⟩ <;> rw [e1, e2] <;>
      simp [quo_neg_left, quo_neg_right]
  rw [e]
  exact key _ _ (abs_nonneg k) (abs_pos.2 hL)

/-- A ranged pool whose numbers are not too large. -/
structure Moderate (p : Pool) (r : Range) : Prop where
  range : p.range = some r
  rx : 0 ≤ p.rx ∧ p.rx ≤ 10 ^ 40
  ry : 0 ≤ p.ry ∧ p.ry ≤ 10 ^ 40
  tX : |r.transX| ≤ 2 * 10 ^ 82
  tY : |r.transY| ≤ 10 ^ 80
  min : 1 ≤ r.minPrice
  max : r.maxPrice ≤ 10 ^ 38
  price : ∀ pp, p.price = some pp → 0 ≤ pp ∧ pp ≤ 10 ^ 93

theorem Moderate.x {p : Pool} {r : Range} (h : Moderate p r) : |p.xComp| ≤ 10 ^ 83 := by
  unfold Pool.xComp Pool.transX
  rw [h.range]
  exact abs_add_le' (ofInt_abs h.rx.1 h.rx.2).2 h.tX (by decide)

theorem Moderate.y {p : Pool} {r : Range} (h : Moderate p r) : |p.yComp| ≤ 10 ^ 81 := by
  unfold Pool.yComp Pool.transY
  rw [h.range]
  exact abs_add_le' (ofInt_abs h.ry.1 h.ry.2).2 h.tY (by decide)

theorem Moderate.price_eq {p : Pool} {r : Range} (h : Moderate p r) : Checked.price p = p.price := by
  have hp := h.price
  unfold Checked.price
  unfold Pool.price at hp ⊢
  rw [h.range] at hp ⊢
  simp only at hp ⊢
  split
  · rfl
  · rename_i c
    rw [if_neg c] at hp
    refine quo_eq (C := 10 ^ 93) (fun hd => ?_) (by decide)
    obtain ⟨h1, h2⟩ := hp (Dec.quo p.xComp p.yComp) (by unfold quo?; rw [if_neg hd])
    rw [abs_of_nonneg h1]; exact h2

theorem Moderate.price_some {p : Pool} {r : Range} (h : Moderate p r) {pp : Int} (e : p.price = some pp) :
    0 ≤ pp ∧ pp ≤ 10 ^ 93 ∧ p.yComp ≠ 0 ∧ 2 * (pp * |p.yComp|) ≤ 2 * (|p.xComp| * one) + |p.yComp| ∧
      |p.xComp| * one ≤ (pp + 1) * |p.yComp| := by
  obtain ⟨h1, h2⟩ := h.price pp e
  unfold Pool.price at e
  rw [h.range] at e
  simp only at e
  split at e
  · cases e
  obtain ⟨h3, rfl⟩ := quo?_some e
  obtain ⟨a1, a2⟩ := abs_quo_high (k := p.xComp) h3
  rw [abs_of_nonneg h1] at a1 a2
  exact ⟨h1, h2, h3, a1, a2⟩

theorem Moderate.buyOver {p : Pool} {r : Range} (h : Moderate p r) {op : Int} (hp : 0 ≤ op) : buyAmountOver p op = p.buyAmountOver op := by
  unfold buyAmountOver Pool.buyAmountOver
  rw [h.price_eq]
  simp only
  cases hpr : p.price with
  | none => rfl
  | some pp =>
    obtain ⟨h0, h1, h2, h3, h4⟩ := h.price_some hpr
    simp only
    by_cases hge : (if op < p.floorPrice then p.floorPrice else op) ≥ pp
    · rw [if_pos hge, if_pos hge]
    rw [if_neg hge, if_neg hge, h.range]
    simp only
    have hfl : p.floorPrice = r.minPrice := by unfold Pool.floorPrice; rw [h.range]
    have hm := h.min
    rw [hfl] at hge ⊢
    obtain ⟨pr, e⟩ : ∃ pr, pr = if op < r.minPrice then r.minPrice else op := ⟨_, rfl⟩
    rw [← e] at hge ⊢
    have hpr : 0 ≤ pr := by rw [e]; split <;> omega
    have hX := h.x
    have hY := h.y
    have hmul : |Dec.mul pr p.yComp| ≤ 10 ^ 84 := by
      apply abs_chop_le
      rw [abs_mul, abs_of_nonneg hpr]
      have e1 : pr * |p.yComp| ≤ pp * |p.yComp| := Int.mul_le_mul_of_nonneg_right (by omega) (abs_nonneg _)
      unfold one at *
      omega
    rw [mul_eq hmul (by decide)]
    simp only [Option.bind_eq_bind, Option.bind_some]
    rw [sub_eq hX hmul (by decide)]
    simp only [Option.bind_some]
    split
    · rfl
    · refine cappedQuo_eq ?_ hp
      have := (ofInt_abs h.rx.1 h.rx.2).1
      split <;> omega

theorem Moderate.sellUnder {p : Pool} {r : Range} (h : Moderate p r) {op : Int} : sellAmountUnder p op = p.sellAmountUnder op := by
  unfold sellAmountUnder Pool.sellAmountUnder
  rw [h.price_eq]
  simp only
  cases hpr : p.price with
  | none => rfl
  | some pp =>
    obtain ⟨h0, h1, h2, h3, h4⟩ := h.price_some hpr
    simp only
    generalize (if op > p.ceilPrice then p.ceilPrice else op) = pr
    by_cases hge : pr ≤ pp
    · rw [if_pos hge, if_pos hge]
    rw [if_neg hge, if_neg hge, if_neg (show pr ≠ 0 by omega), h.range]
    simp only
    have hX := h.x
    have hY := h.y
    have hq : |p.xComp| * one ≤ 10 ^ 81 * |pr| := by
      rw [abs_of_nonneg (show 0 ≤ pr by omega)]
      have e1 : (pp + 1) * |p.yComp| ≤ pr * 10 ^ 81 := mul_le_mul (by omega) hY (abs_nonneg _) (by omega)
      linarith
    have hq' := abs_quoRoundUp_le (by omega) hq
    rw [quoRoundUp_eq (by omega) hq (by decide)]
    simp only [Option.bind_eq_bind, Option.bind_some]
    rw [sub_eq hY hq' (by decide)]
    simp only [Option.bind_some]
    rw [truncateInt_eq (abs_sub_le' hY hq' (by decide))]
    rfl

theorem sqrt_abs_sq {d : Int} (hd : |d| < 2 ^ 315) : sqrt d = some (approxSqrt d) ∧
    (d ≠ 0 → (|approxSqrt d| - 1) * (|approxSqrt d| - 1) ≤ |d| * one ∧ 1 ≤ |approxSqrt d|) := by
  obtain ⟨h1, h2⟩ := abs_lt.1 hd
  refine ⟨sqrt_eq (fits_iff.2 ⟨by omega, by omega⟩), fun hne => ?_⟩
  rcases le_total 0 d with h | h
  · obtain ⟨c0, c1, -⟩ := approxSqrt_close h h2
    rw [abs_of_nonneg c0, abs_of_nonneg h]
    exact ⟨(c1 hne).1.le, (c1 hne).2⟩
  · have e : approxSqrt d = -approxSqrt (-d) := by
      unfold approxSqrt
      simp only
      rw [if_pos (by omega), if_neg (show ¬ -d < 0 by omega)]
    obtain ⟨c0, c1, -⟩ := approxSqrt_close (show 0 ≤ -d by omega) (by omega)
    rw [e, abs_neg, abs_of_nonneg c0, abs_of_nonpos h]
    exact ⟨(c1 (by omega)).1.le, (c1 (by omega)).2⟩

theorem Moderate.roots {p : Pool} {r : Range} (h : Moderate p r) :
    sqrt p.xComp = some (approxSqrt p.xComp) ∧ sqrt p.yComp = some (approxSqrt p.yComp) ∧
    |approxSqrt p.xComp| ≤ 10 ^ 51 ∧ |approxSqrt p.yComp| ≤ 10 ^ 50 ∧
    |Dec.mul (approxSqrt p.xComp) (approxSqrt p.yComp)| ≤ 10 ^ 83 := by
  obtain ⟨a1, a2⟩ := sqrt_abs h.x (by decide) (B := 10 ^ 51 - 1) (by decide) (by decide)
  obtain ⟨b1, b2⟩ := sqrt_abs h.y (by decide) (B := 10 ^ 50 - 1) (by decide) (by decide)
  refine ⟨a1, b1, by omega, by omega, abs_mul_le a2 b2 (by decide)⟩

/-- The product of the roots of a price and a depth. -/
theorem prod_bound {b c pr Y pp X : Int} (hb : 1 ≤ b) (hc : 1 ≤ c) (hY0 : 0 ≤ Y) (hb2 : (b - 1) * (b - 1) ≤ Y * one)
    (hc2 : (c - 1) * (c - 1) ≤ pr * one) (hle : pr ≤ pp) (h : 2 * (pp * Y) ≤ 2 * (X * one) + Y) (hX : X ≤ 10 ^ 83) (hY : Y ≤ 10 ^ 81)
    (hb' : b ≤ 10 ^ 50) (hc' : c ≤ 10 ^ 56) : b * c ≤ 10 ^ 70 := by
  have ho := one_pos'
  have e1 : pr * Y ≤ 2 * 10 ^ 101 := by
    have : pr * Y ≤ pp * Y := Int.mul_le_mul_of_nonneg_right hle hY0
    unfold one at h
    omega
  have e2 : ((b - 1) * (b - 1)) * ((c - 1) * (c - 1)) ≤ (Y * one) * (pr * one) :=
    mul_le_mul hb2 hc2 (mul_self_nonneg _) (mul_nonneg hY0 ho.le)
  have e3 : (Y * one) * (pr * one) ≤ (2 * 10 ^ 101) * (one * one) := by
    have := Int.mul_le_mul_of_nonneg_right e1 (mul_nonneg ho.le ho.le)
    linarith
  have e4 : (b - 1) * (c - 1) ≤ 10 ^ 69 := by
    by_contra hcon
    have := mul_self_le_mul_self (show (0 : Int) ≤ 10 ^ 69 by decide) (show 10 ^ 69 ≤ (b - 1) * (c - 1) by omega)
    rw [one_sq] at e3
    have e5 : ((b - 1) * (c - 1)) * ((b - 1) * (c - 1)) = ((b - 1) * (b - 1)) * ((c - 1) * (c - 1)) := by ring
    omega
  have e6 : b * c = (b - 1) * (c - 1) + b + c - 1 := by ring
  omega

theorem Moderate.buyTo {p : Pool} {r : Range} (h : Moderate p r) {op : Int} (hp : 0 ≤ op) :
    buyAmountTo p op = p.buyAmountTo approxSqrt op := by
  unfold buyAmountTo Pool.buyAmountTo
  rw [h.price_eq]
  simp only
  cases hpr : p.price with
  | none => rfl
  | some pp =>
    obtain ⟨h0, h1, h2, h3, h4⟩ := h.price_some hpr
    simp only
    by_cases hge : (if op < p.floorPrice then p.floorPrice else op) ≥ pp
    · rw [if_pos hge, if_pos hge]
    rw [if_neg hge, if_neg hge, h.range]
    simp only
    have hfl : p.floorPrice = r.minPrice := by unfold Pool.floorPrice; rw [h.range]
    have hm := h.min
    rw [hfl] at hge ⊢
    obtain ⟨pr, e⟩ : ∃ pr, pr = if op < r.minPrice then r.minPrice else op := ⟨_, rfl⟩
    rw [← e] at hge ⊢
    have hpr : 1 ≤ pr := by rw [e]; split <;> omega
    obtain ⟨ra, rb, a2, b2, k2⟩ := h.roots
    have hprA : |pr| ≤ 10 ^ 93 := by rw [abs_of_nonneg (by omega)]; omega
    obtain ⟨rc, c2⟩ := sqrt_abs hprA (by decide) (B := 10 ^ 56 - 1) (by decide) (by decide)
    have c3 := (sqrt_abs_sq (d := pr) (by omega)).2 (by omega)
    have b3 := (sqrt_abs_sq (d := p.yComp) (by have := h.y; omega)).2 h2
    rw [abs_of_nonneg (show 0 ≤ pr by omega)] at c3
    have hbc := prod_bound b3.2 c3.2 (abs_nonneg _) b3.1 c3.1 (by omega) h3 h.x h.y b2 (by omega)
    have x1 := (ofInt_abs h.rx.1 h.rx.2).2
    rw [ra, rb, rc]
    simp only [Option.bind_eq_bind, Option.bind_some]
    rw [mul_eq k2 (by decide)]
    simp only [Option.bind_some]
    have m : |Dec.mul (approxSqrt pr) (Dec.mul (approxSqrt p.xComp) (approxSqrt p.yComp))| ≤ 10 ^ 86 := by
      apply abs_chop_le
      rw [abs_mul]
      have k3 : |Dec.mul (approxSqrt p.xComp) (approxSqrt p.yComp)| * one ≤
          |approxSqrt p.xComp| * |approxSqrt p.yComp| + one := by
        have : |Dec.mul (approxSqrt p.xComp) (approxSqrt p.yComp)| ≤ |approxSqrt p.xComp * approxSqrt p.yComp| / one + 1 := by
          apply abs_chop_le
          have := Int.lt_ediv_add_one_mul_self (|approxSqrt p.xComp * approxSqrt p.yComp|) one_pos'
          omega
        rw [abs_mul] at this
        have e1 := Int.ediv_mul_le (|approxSqrt p.xComp| * |approxSqrt p.yComp|) (show one ≠ 0 by decide)
        have e2 := Int.mul_le_mul_of_nonneg_right this one_pos'.le
        linarith
      have ac := abs_nonneg (approxSqrt pr)
      have aa := abs_nonneg (approxSqrt p.xComp)
      generalize |approxSqrt pr| = c at *
      generalize |approxSqrt p.yComp| = b at *
      generalize |approxSqrt p.xComp| = a at *
      generalize |Dec.mul (approxSqrt p.xComp) (approxSqrt p.yComp)| = k at *
      have e1 : c * (k * one) ≤ c * (a * b + one) := Int.mul_le_mul_of_nonneg_left k3 ac
      have e2 : a * (b * c) ≤ 10 ^ 51 * 10 ^ 70 := mul_le_mul a2 hbc (mul_nonneg (by omega) ac) (by norm_num)
      have e3 : (c * k) * one ≤ (10 ^ 86 * one) * one := by
        have e4 : c * (a * b + one) = a * (b * c) + c * one := by ring
        have e5 : (c * k) * one = c * (k * one) := by ring
        rw [e5]
        rw [e4] at e1
        unfold one at *
        omega
      exact le_of_mul_le_mul_right e3 one_pos'
    rw [mul_eq m (by decide)]
    simp only [Option.bind_some]
    have hm1 := abs_sub_le' (C := 10 ^ 87) m h.tX (by decide)
    rw [sub_eq m h.tX (by decide)]
    simp only [Option.bind_some]
    rw [sub_eq x1 hm1 (by decide)]
    simp only [Option.bind_some]
    split
    · rfl
    · refine cappedQuo_eq ?_ hp
      have := (ofInt_abs h.rx.1 h.rx.2).1
      split <;> omega

theorem Moderate.sellTo {p : Pool} {r : Range} (h : Moderate p r) {op : Int} : sellAmountTo p op = p.sellAmountTo approxSqrt op := by
  unfold sellAmountTo Pool.sellAmountTo
  rw [h.price_eq]
  simp only
  cases hpr : p.price with
  | none => rfl
  | some pp =>
    obtain ⟨h0, h1, h2, h3, h4⟩ := h.price_some hpr
    simp only
    obtain ⟨pr, e⟩ : ∃ pr, pr = if op > p.ceilPrice then p.ceilPrice else op := ⟨_, rfl⟩
    rw [← e]
    by_cases hge : pr ≤ pp
    · rw [if_pos hge, if_pos hge]
    rw [if_neg hge, if_neg hge, h.range]
    have hfl : p.ceilPrice = r.maxPrice := by unfold Pool.ceilPrice; rw [h.range]
    have hm := h.max
    have hle : pr ≤ r.maxPrice := by rw [e, hfl]; split <;> omega
    simp only
    obtain ⟨ra, rb, a2, b2, k2⟩ := h.roots
    have hprA : |pr| ≤ 10 ^ 93 := by rw [abs_of_nonneg (by omega)]; omega
    have rc := (sqrt_abs hprA (by decide) (B := 10 ^ 56 - 1) (by decide) (by decide)).1
    have c0 := approxSqrt_lower (d := pr) (by omega)
    have c1 := approxSqrt_nonneg pr (by omega)
    have c9 : 999999999 ≤ approxSqrt pr := by
      by_contra hc
      have := mul_self_le_mul_self (show 0 ≤ approxSqrt pr + 1 by omega) (show approxSqrt pr + 1 ≤ 999999999 by omega)
      unfold one at c0
      omega
    have y1 := (ofInt_abs h.ry.1 h.ry.2).2
    rw [ra, rb, rc, if_neg (show approxSqrt pr ≠ 0 by omega)]
    simp only [Option.bind_eq_bind, Option.bind_some]
    rw [mul_eq k2 (by decide)]
    simp only [Option.bind_some]
    have hq : |Dec.mul (approxSqrt p.xComp) (approxSqrt p.yComp)| * one ≤ 2 * 10 ^ 92 * |approxSqrt pr| := by
      rw [abs_of_nonneg c1]
      unfold one; omega
    have hq' := abs_quoRoundUp_le (by omega) hq
    rw [quoRoundUp_eq (by omega) hq (by decide)]
    simp only [Option.bind_some]
    have hq2 := abs_sub_le' (C := 3 * 10 ^ 92) hq' h.tY (by decide)
    rw [sub_eq hq' h.tY (by decide)]
    simp only [Option.bind_some]
    rw [sub_eq y1 hq2 (by decide)]
    simp only [Option.bind_some]
    rw [truncateInt_eq (abs_sub_le' y1 hq2 (by decide))]
    rfl

/-- The pools that the module works with are moderate. -/
theorem moderate_new {rx ry ps m l : Int} (hx : 0 ≤ rx ∧ rx ≤ 10 ^ 36) (hy : 0 ≤ ry ∧ ry ≤ 10 ^ 36) (h1 : 1000 ≤ m) (hml : m ≤ l)
    (h2 : l ≤ 10 ^ 38) {p : Pool} (h : Amm.newRangedPool approxSqrt rx ry ps m l = some p) : ∃ r, Moderate p r := by
  unfold Amm.newRangedPool at h
  simp only [Option.bind_eq_bind, Option.bind_eq_some_iff] at h
  obtain ⟨t, e, hp⟩ := h
  obtain ⟨k, hk, rfl⟩ := (derive_checked hx hy h1 hml h2).2 t e
  have dp := derive_price hx.1 hy.1 h1 hml h2 e
  have e36 : (10 : Int) ^ 36 * one = 10 ^ 54 := by decide
  have x1 := (ofInt_abs hx.1 hx.2).2
  have y1 := (ofInt_abs hy.1 hy.2).2
  rw [e36] at x1 y1
  obtain ⟨s1, s2, s3⟩ := factor_sizes x1 y1 hk (limits_of h1 hml h2)
  cases hp
  refine ⟨_, ⟨rfl, ⟨hx.1, by simp only; omega⟩, ⟨hy.1, by simp only; omega⟩, s1, s2, by simp only; omega, h2, fun pp hpp => ?_⟩⟩
  unfold Pool.price at hpp
  simp only at hpp
  split at hpp
  · cases hpp
  obtain ⟨n0, rfl⟩ := quo?_some hpp
  unfold Pool.xComp Pool.yComp Pool.transX Pool.transY at *
  simp only at n0 ⊢
  exact ⟨dp, (abs_le.1 (s3 n0)).2⟩

end Verif.Checked

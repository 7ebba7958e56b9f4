import Verif.Proofs.PoolDepth
import Mathlib.Tactic.Linarith
import Mathlib.Tactic.NormNum
import Mathlib.Data.Nat.Sqrt
import Mathlib.Tactic.Positivity
/-! The library's Newton iteration for square roots: exact to one unit, and monotone. -/
namespace Verif.Amm
open Verif Verif.Dec

set_option exponentiation.threshold 400

/-- Rounded quotients of non-negative numbers. -/
theorem quo_two {d g : Int} (hd : 0 ≤ d) (hg : 1 ≤ g) :
    2 * (Dec.quo d g * g) ≤ 2 * (d * one) + g ∧ 2 * (d * one) * one < (2 * Dec.quo d g + 1) * g * one + 2 * g := by
  have ho := one_pos'
  have h0 : 0 ≤ d * one * one := Int.mul_nonneg (Int.mul_nonneg hd ho.le) ho.le
  unfold Dec.quo
  rw [Int.tdiv_eq_ediv_of_nonneg h0]
  have hA := Int.ediv_mul_le (d * one * one) (show g ≠ 0 by omega)
  have hB := Int.lt_ediv_add_one_mul_self (d * one * one) (show 0 < g by omega)
  have hC := chop_bounds (Int.ediv_nonneg h0 (show 0 ≤ g by omega))
  generalize d * one * one / g = a at *
  generalize chopRound a = q at *
  constructor
  · have h1 : 2 * (q * g) * one ≤ (2 * (d * one) + g) * one := by nlinarith
    exact le_of_mul_le_mul_right h1 ho
  · nlinarith

/-- The estimate is not below the root (up to a quarter of a unit and an error `E`). -/
def Up (d E g : Int) : Prop := 1 ≤ g ∧ 16 * (d * one) ≤ (4 * g + 1) * (4 * g + 1) + E

/-- The estimate is not more than one unit above the root. -/
def Down (d g : Int) : Prop := 1 ≤ g ∧ (4 * g - 3) * (4 * g - 3) ≤ 16 * (d * one) + 49

/-- Half of a difference, rounded towards zero. -/
theorem half_cases (q g : Int) : (q ≤ g ∧ g + q ≤ 2 * (g + (q - g).tdiv 2) ∧ 2 * (g + (q - g).tdiv 2) ≤ g + q + 1) ∨
    (g < q ∧ g + q - 1 ≤ 2 * (g + (q - g).tdiv 2) ∧ 2 * (g + (q - g).tdiv 2) ≤ g + q) := by
  rcases le_or_gt q g with h | h
  · left
    have e : (q - g).tdiv 2 = -((g - q) / 2) := by
      rw [show q - g = -(g - q) by ring, Int.neg_tdiv, Int.tdiv_eq_ediv_of_nonneg (by omega)]
    omega
  · right
    have e : (q - g).tdiv 2 = (q - g) / 2 := Int.tdiv_eq_ediv_of_nonneg (by omega)
    omega

/-- What is needed of the number and the bounds. -/
structure Setup (d E R S : Int) : Prop where
  d_pos : 1 ≤ d
  R_pos : 1 ≤ R
  d_le : d * one ≤ R * R
  err : 40 * R ≤ E * one
  E_nonneg : 0 ≤ E
  lo : (S - 1) * (S - 1) ≤ d * one
  hi : d * one < S * S
  S_pos : 2 ≤ S
  big : ∀ g, Up d E g → 1 + E < 16 * g

theorem Setup.step_up {d E R S g : Int} (h : Setup d E R S) (hg : 1 ≤ g) (hq : Dec.quo d g ≤ g) :
    Up d E (g + (Dec.quo d g - g).tdiv 2) := by
  obtain ⟨b1, b2⟩ := quo_two (d := d) (by have := h.d_pos; omega) hg
  have hq0 : 0 ≤ Dec.quo d g := quo_nonneg_dec (by have := h.d_pos; omega) (by omega)
  have hh := half_cases (Dec.quo d g) g
  generalize (Dec.quo d g - g).tdiv 2 = t at *
  generalize Dec.quo d g = q at *
  have ho := one_pos'
  obtain ⟨-, h1, -⟩ | ⟨h1, -⟩ := hh
  swap
  · omega
  generalize e : g + t = g' at *
  refine ⟨by omega, ?_⟩
  have e1 : (2 * g + 2 * q + 1) * (2 * g + 2 * q + 1) ≤ (4 * g' + 1) * (4 * g' + 1) := by nlinarith
  have e2 : (2 * g + 2 * q + 1) * (2 * g + 2 * q + 1) = 8 * ((2 * q + 1) * g) + (2 * g - 2 * q - 1) * (2 * g - 2 * q - 1) := by ring
  have e3 : 16 * g ≤ ((2 * g - 2 * q - 1) * (2 * g - 2 * q - 1) + E) * one := by
    rcases le_or_gt (2 * g) (5 * R) with c | c
    · have := h.err
      have := mul_nonneg (mul_self_nonneg (2 * g - 2 * q - 1)) ho.le
      nlinarith
    · have hR := h.R_pos
      have hdl := h.d_le
      have c1 : 25 * (R * R) ≤ 4 * (g * g) := by nlinarith
      have c2 : 25 * (2 * q * g) ≤ (8 * g + 25) * g := by nlinarith
      have c3 : 25 * (2 * q) ≤ 8 * g + 25 := by
        have : (25 * (2 * q)) * g ≤ (8 * g + 25) * g := by linarith
        exact le_of_mul_le_mul_right this (by omega)
      have c4 : 2 * q + 1 ≤ g := by omega
      have c5 : g * g ≤ (2 * g - 2 * q - 1) * (2 * g - 2 * q - 1) := mul_self_le_mul_self (by omega) (by omega)
      have c6 : g ≤ (2 * g - 2 * q - 1) * (2 * g - 2 * q - 1) + E := by have := h.E_nonneg; nlinarith
      have c7 : (16 : Int) ≤ one := by decide
      nlinarith
  have e4 : 16 * (d * one) * one ≤ ((4 * g' + 1) * (4 * g' + 1) + E) * one := by nlinarith
  exact le_of_mul_le_mul_right e4 ho

theorem Setup.step_over {d E R S g : Int} (h : Setup d E R S) (hu : Up d E g) : Dec.quo d g ≤ g + 1 := by
  have hb := h.big g hu
  obtain ⟨hg, hu⟩ := hu
  obtain ⟨b1, -⟩ := quo_two (d := d) (by have := h.d_pos; omega) hg
  generalize Dec.quo d g = q at *
  by_contra hc
  have : (g + 2) * g ≤ q * g := Int.mul_le_mul_of_nonneg_right (by omega) (by omega)
  nlinarith

theorem down_of {d g : Int} (hd : 0 ≤ d) (hg : 1 ≤ g) (h1 : Dec.quo d g ≤ g + 3) (h2 : g ≤ Dec.quo d g + 3)
    (hb : 1 ≤ g + (Dec.quo d g - g).tdiv 2) : Down d (g + (Dec.quo d g - g).tdiv 2) := by
  obtain ⟨b1, -⟩ := quo_two (d := d) hd hg
  have hh := half_cases (Dec.quo d g) g
  generalize (Dec.quo d g - g).tdiv 2 = t at *
  generalize Dec.quo d g = q at *
  refine ⟨hb, ?_⟩
  generalize d * one = N at *
  obtain ⟨j, rfl⟩ : ∃ j, q = g + j := ⟨q - g, by omega⟩
  have j1 : -3 ≤ j := by omega
  have j2 : j ≤ 3 := by omega
  have hj : (j = -3 ∧ t = -1) ∨ (j = -2 ∧ t = -1) ∨ (j = -1 ∧ t = 0) ∨ (j = 0 ∧ t = 0) ∨ (j = 1 ∧ t = 0) ∨ (j = 2 ∧ t = 1) ∨
      (j = 3 ∧ t = 1) := by omega
  rcases hj with ⟨rfl, rfl⟩ | ⟨rfl, rfl⟩ | ⟨rfl, rfl⟩ | ⟨rfl, rfl⟩ | ⟨rfl, rfl⟩ | ⟨rfl, rfl⟩ | ⟨rfl, rfl⟩ <;> nlinarith

theorem Setup.below {d E R S g : Int} (h : Setup d E R S) (hg : 1 ≤ g) (hs : g ≤ S - 1) : g ≤ Dec.quo d g := by
  obtain ⟨-, b2⟩ := quo_two (d := d) (by have := h.d_pos; omega) hg
  have h1 : g * g ≤ d * one := le_trans (mul_self_le_mul_self (by omega) hs) h.lo
  generalize Dec.quo d g = q at *
  generalize d * one = N at *
  have ho := one_pos'
  have h2 : (2 * g * one) * g < ((2 * q + 1) * one + 2) * g := by nlinarith
  have h3 := lt_of_mul_lt_mul_right h2 (by omega)
  by_contra hc
  have : (2 * q + 2) * one ≤ 2 * g * one := Int.mul_le_mul_of_nonneg_right (by omega) ho.le
  have : (2 : Int) < one := by decide
  nlinarith

theorem Setup.above {d E R S g : Int} (h : Setup d E R S) (hs : S ≤ g) : Dec.quo d g ≤ S := by
  have hS := h.S_pos
  obtain ⟨b1, -⟩ := quo_two (d := d) (by have := h.d_pos; omega) (show 1 ≤ g by omega)
  have h1 : d * one ≤ S * g := le_trans h.hi.le (Int.mul_le_mul_of_nonneg_left hs (by omega))
  generalize Dec.quo d g = q at *
  generalize d * one = N at *
  have : (2 * q) * g ≤ (2 * S + 1) * g := by nlinarith
  have := le_of_mul_le_mul_right this (by omega)
  omega

theorem loop_stop {d g δ : Int} (n : Nat) (h : δ.natAbs ≤ 1) : approxSqrtLoop d n g δ = g := by
  cases n with
  | zero => rfl
  | succ n => rw [approxSqrtLoop, if_neg (by omega)]

theorem loop_next {d g δ : Int} (n : Nat) (hg : 1 ≤ g) (h : 1 < δ.natAbs) :
    approxSqrtLoop d (n + 1) g δ = approxSqrtLoop d n (g + (Dec.quo d g - g).tdiv 2) ((Dec.quo d g - g).tdiv 2) := by
  rw [approxSqrtLoop, if_pos (by omega)]
  simp only
  rw [if_neg (by omega)]

/-- The next estimate. -/
theorem Setup.next {d E R S g : Int} (h : Setup d E R S) (hu : Up d E g) :
    Up d E (g + (Dec.quo d g - g).tdiv 2) ∧ (((Dec.quo d g - g).tdiv 2).natAbs ≤ 1 → Down d (g + (Dec.quo d g - g).tdiv 2)) ∧
    (g < S → (Dec.quo d g - g).tdiv 2 = 0) ∧ (S ≤ g → 2 * (g + (Dec.quo d g - g).tdiv 2 - (S + 1)) ≤ g - (S + 1)) ∧
    (Dec.quo d g - g).tdiv 2 ≤ 0 := by
  have hd : 0 ≤ d := by have := h.d_pos; omega
  have hov := h.step_over hu
  have hup : Dec.quo d g ≤ g → _ := h.step_up hu.1
  have hdn := down_of hd hu.1
  have hbl := h.below hu.1
  have hab := h.above (g := g)
  have hh := half_cases (Dec.quo d g) g
  have hS := h.S_pos
  have h1 := hu.1
  generalize (Dec.quo d g - g).tdiv 2 = t at *
  generalize Dec.quo d g = q at *
  have u : Up d E (g + t) := by
    rcases le_or_gt q g with c | c
    · exact hup c
    · have : t = 0 := by omega
      rw [this, Int.add_zero]; exact hu
  refine ⟨u, fun ht => hdn (by omega) (by omega) u.1, fun hlt => ?_, fun hge => ?_, by omega⟩
  · have := hbl (by omega); omega
  · have := hab hge; omega

theorem Setup.loop {d E R S : Int} (h : Setup d E R S) : ∀ (m n : Nat) (g δ : Int), m + 2 ≤ n → Up d E g → g - (S + 1) < 2 ^ m →
    (δ.natAbs ≤ 1 → Down d g) → Up d E (approxSqrtLoop d n g δ) ∧ Down d (approxSqrtLoop d n g δ) := by
  intro m
  induction m with
  | zero =>
    intro n g δ hn hu hm hdn
    rcases Nat.lt_or_ge 1 δ.natAbs with c | c
    · obtain ⟨n, rfl⟩ : ∃ k, n = k + 1 + 1 := ⟨n - 2, by omega⟩
      rw [loop_next _ hu.1 c]
      obtain ⟨u, dn, lt, ge, le⟩ := h.next hu
      generalize (Dec.quo d g - g).tdiv 2 = t at *
      rcases Nat.lt_or_ge 1 t.natAbs with c | c
      · rw [loop_next _ u.1 c]
        obtain ⟨u', dn', lt', -, -⟩ := h.next u
        have := lt' (by omega)
        rw [this, Int.add_zero] at dn' ⊢
        rw [loop_stop _ (by decide)]
        exact ⟨u, dn' (by decide)⟩
      · rw [loop_stop _ c]; exact ⟨u, dn c⟩
    · rw [loop_stop _ c]; exact ⟨hu, hdn c⟩
  | succ m ih =>
    intro n g δ hn hu hm hdn
    rcases Nat.lt_or_ge 1 δ.natAbs with c | c
    · obtain ⟨n, rfl⟩ : ∃ k, n = k + 1 := ⟨n - 1, by omega⟩
      rw [loop_next _ hu.1 c]
      obtain ⟨u, dn, lt, ge, le⟩ := h.next hu
      generalize (Dec.quo d g - g).tdiv 2 = t at *
      refine ih n _ _ (by omega) u ?_ dn
      rcases le_or_gt S g with c | c
      · have := ge c
        rw [pow_succ] at hm
        omega
      · have := lt c
        have : (0 : Int) < 2 ^ m := by positivity
        omega
    · rw [loop_stop _ c]; exact ⟨hu, hdn c⟩

theorem root_exists {N : Int} (h : 1 ≤ N) : ∃ S : Int, 2 ≤ S ∧ (S - 1) * (S - 1) ≤ N ∧ N < S * S := by
  refine ⟨Nat.sqrt N.toNat + 1, ?_, ?_, ?_⟩
  · have : 0 < Nat.sqrt N.toNat := Nat.sqrt_pos.2 (by omega)
    omega
  · have := Nat.sqrt_le N.toNat
    have := Int.ofNat_le.2 this
    push_cast at this
    rw [show ((Nat.sqrt N.toNat : Int) + 1 - 1) = (Nat.sqrt N.toNat : Int) by ring]
    omega
  · have := Nat.lt_succ_sqrt N.toNat
    have := Int.ofNat_lt.2 this
    push_cast at this
    have e : (N.toNat : Int) = N := by omega
    rw [e] at this
    simpa using this

/-- A lower bound for an estimate. -/
theorem Up.ge {d E g B : Int} (h : Up d E g) (hN : (4 * B + 1) * (4 * B + 1) + E ≤ 16 * (d * one)) : B ≤ g := by
  by_contra hc
  have := mul_self_lt_mul_self (show 0 ≤ 4 * g + 1 by have := h.1; omega) (show 4 * g + 1 < 4 * B + 1 by omega)
  have := h.2
  omega

theorem setup_low {d : Int} (hd : 1 ≤ d) (hP : d ≤ one) : ∃ S, Setup d 40 one S ∧ S ≤ one + 1 := by
  unfold one at hP
  obtain ⟨S, h1, h2, h3⟩ := root_exists (N := d * one) (by unfold one; omega)
  refine ⟨S, ⟨hd, by decide, by unfold one; omega, by decide, by decide, h2, h3, h1, fun g hg => ?_⟩, ?_⟩
  · have := hg.ge (B := 3) (by unfold one; omega)
    omega
  · by_contra hc
    have := mul_self_lt_mul_self (show 0 ≤ one by decide) (show one < S - 1 by omega)
    unfold one at this h2
    omega

theorem setup_high {d : Int} (hd : one < d) (hP : d ≤ 10 ^ 38) : ∃ S, Setup d (4 * 10 ^ 11) (10 ^ 28) S := by
  unfold one at hd
  obtain ⟨S, h1, h2, h3⟩ := root_exists (N := d * one) (by unfold one; omega)
  refine ⟨S, ⟨by omega, by norm_num, by unfold one; omega, by unfold one; norm_num, by norm_num, h2, h3, h1, fun g hg => ?_⟩⟩
  have := hg.ge (B := 10 ^ 17) (by unfold one; norm_num; omega)
  omega

theorem quo_one {d : Int} : Dec.quo d one = d := by
  unfold Dec.quo
  rw [Int.mul_tdiv_cancel _ (by decide), chop_int]

/-- The first step. -/
theorem approxSqrt_first {d : Int} (hd : 1 ≤ d) (hne : d ≠ one) :
    approxSqrt d = approxSqrtLoop d 299 (one + (d - one).tdiv 2) ((d - one).tdiv 2) := by
  unfold approxSqrt
  simp only
  rw [if_neg (by omega), if_neg (by omega)]
  have := loop_next (d := d) (g := one) (δ := one) 299 (by decide) (by decide)
  rw [quo_one] at this
  exact this

/-- The numbers slightly above one. -/
def Near (d : Int) : Prop := one ≤ d ∧ d ≤ one + 1500000000

theorem approxSqrt_near {d : Int} (h : Near d) : approxSqrt d = one + (d - one) / 2 ∧ Down d (approxSqrt d) := by
  obtain ⟨h1, h2⟩ := h
  by_cases he : d = one
  · subst he
    exact ⟨by decide +kernel, ⟨by decide +kernel, by decide +kernel⟩⟩
  have ho := one_pos'
  have e : (d - one).tdiv 2 = (d - one) / 2 := Int.tdiv_eq_ediv_of_nonneg (by omega)
  rw [approxSqrt_first (by omega) he, e]
  obtain ⟨k, rfl⟩ : ∃ k, d = one + k := ⟨d - one, by omega⟩
  rw [show one + k - one = k by ring]
  have g1 : (1 : Int) ≤ one + k / 2 := by omega
  rcases Nat.lt_or_ge 1 (k / 2).natAbs with c | c
  · have hd := down_of (d := one + k) (g := one + k / 2) (by omega) g1
    rw [loop_next _ g1 c]
    have b := quo_two (d := one + k) (g := one + k / 2) (by omega) g1
    have hh := half_cases (Dec.quo (one + k) (one + k / 2)) (one + k / 2)
    generalize (Dec.quo (one + k) (one + k / 2) - (one + k / 2)).tdiv 2 = t at *
    generalize Dec.quo (one + k) (one + k / 2) = q at *
    obtain ⟨b1, b2⟩ := b
    have hk : k = 2 * (k / 2) ∨ k = 2 * (k / 2) + 1 := by omega
    have hl : 0 ≤ k / 2 := by omega
    have hu : k / 2 ≤ 750000000 := by omega
    generalize k / 2 = a at *
    have sq : a * a ≤ one + a := by unfold one; nlinarith
    have n1 : (one + k) * one ≤ (one + a) * (one + a) + one := by
      rcases hk with hk | hk <;> rw [hk] <;> nlinarith
    have n2 : (one + a) * (one + a) - (one + a) ≤ (one + k) * one := by
      rcases hk with hk | hk <;> rw [hk] <;> nlinarith
    generalize (one + k) * one = N at *
    have q1 : q ≤ one + a + 1 := by
      have : (2 * q) * (one + a) ≤ (2 * (one + a) + 3) * (one + a) := by nlinarith
      have := le_of_mul_le_mul_right this (by omega)
      omega
    have q2 : one + a ≤ q + 1 := by
      have : (2 * (one + a - 1) * one) * (one + a) < ((2 * q + 1) * one + 2) * (one + a) := by nlinarith
      have h3 := lt_of_mul_lt_mul_right this (by omega)
      by_contra hc
      have : (2 * q + 2) * one ≤ 2 * (one + a - 1) * one := Int.mul_le_mul_of_nonneg_right (by omega) ho.le
      have : (2 : Int) < one := by decide
      nlinarith
    have ht : t = 0 := by omega
    rw [loop_stop _ (by omega), ht]
    refine ⟨by ring, ?_⟩
    have := hd (by omega) (by omega) (by omega)
    rwa [ht] at this
  · rw [loop_stop _ c]
    refine ⟨rfl, ?_⟩
    have := down_of (d := one + k) (g := one) (by omega) (by decide)
    rw [quo_one, show one + k - one = k by ring, show k.tdiv 2 = k / 2 from Int.tdiv_eq_ediv_of_nonneg (by omega)] at this
    exact this (by omega) (by omega) (by omega)

theorem approxSqrt_low {d : Int} (hd : 1 ≤ d) (hlt : d < one) : Up d 40 (approxSqrt d) ∧ Down d (approxSqrt d) := by
  obtain ⟨S, hS, hS'⟩ := setup_low hd hlt.le
  rw [approxSqrt_first hd (by omega)]
  have u := hS.step_up (g := one) (by decide) (by rw [quo_one]; omega)
  have dn := down_of (d := d) (g := one) (by omega) (by decide)
  have hh := half_cases d one
  rw [quo_one] at u dn
  generalize (d - one).tdiv 2 = t at *
  refine hS.loop 127 299 _ _ (by decide) u ?_ fun ht => dn (by omega) (by omega) u.1
  have := hS.S_pos
  unfold one at *
  omega

theorem Setup.high {d E R S : Int} (hS : Setup d E R S) (hd : one + 1500000000 < d) (hle : d ≤ 10 ^ 85) :
    Up d E (approxSqrt d) ∧ Down d (approxSqrt d) := by
  rw [approxSqrt_first (by have := one_pos'; omega) (by omega)]
  have dn := down_of (d := d) (g := one) (by have := one_pos'; omega) (by decide)
  have hh := half_cases d one
  rw [quo_one] at dn
  obtain ⟨k, rfl⟩ : ∃ k, d = one + k := ⟨d - one, by omega⟩
  generalize (one + k - one).tdiv 2 = t at *
  have u : Up (one + k) E (one + t) := by
    refine ⟨by have := one_pos'; omega, ?_⟩
    have e1 : 4 * one + 2 * k - 1 ≤ 4 * (one + t) + 1 := by omega
    have e2 := mul_self_le_mul_self (show 0 ≤ 4 * one + 2 * k - 1 by have := one_pos'; omega) e1
    have e3 : 8 * one ≤ (2 * k - 1) * (2 * k - 1) := by
      have := mul_self_le_mul_self (show (0 : Int) ≤ 2999999999 by omega) (show 2999999999 ≤ 2 * k - 1 by omega)
      unfold one; omega
    have := hS.E_nonneg
    nlinarith
  refine hS.loop 290 299 _ _ (by decide) u ?_ fun ht => dn (by omega) (by omega) u.1
  have := hS.S_pos
  unfold one at *
  omega

theorem approxSqrt_high {d : Int} (hd : one + 1500000000 < d) (hle : d ≤ 10 ^ 38) :
    Up d (4 * 10 ^ 11) (approxSqrt d) ∧ Down d (approxSqrt d) := by
  obtain ⟨S, hS⟩ := setup_high (by omega) hle
  exact hS.high hd (by omega)

theorem setup_any {d : Int} (hd : 1 ≤ d) : ∃ S E, Setup d E S S ∧ E ≤ S ∧ 100 ≤ S := by
  obtain ⟨S, h1, h2, h3⟩ := root_exists (N := d * one) (by unfold one; omega)
  have hS : 100 ≤ S := by
    by_contra hc
    have := mul_self_le_mul_self (show 0 ≤ S by omega) (show S ≤ 99 by omega)
    unfold one at h3; omega
  have hE : 40 * S / one + 1 ≤ S := by unfold one; omega
  have hE0 : 0 ≤ 40 * S / one + 1 := by unfold one; omega
  have hE1 : 40 * S ≤ (40 * S / one + 1) * one := by unfold one; omega
  generalize 40 * S / one + 1 = E at *
  refine ⟨S, E, ⟨hd, by omega, h3.le, hE1, hE0, h2, h3, h1, fun g hg => ?_⟩, hE, hS⟩
  by_contra hc
  obtain ⟨g1, g2⟩ := hg
  have a1 : (4 * g + 1) * (4 * g + 1) ≤ S * S := mul_self_le_mul_self (by omega) (by omega)
  nlinarith

/-- The distance to the root is halved until it is below `2^a`. -/
theorem Setup.halve {d E R S : Int} (h : Setup d E R S) (a n0 : Nat)
    (base : ∀ (n : Nat) (g δ : Int), n0 ≤ n → Up d E g → g - (S + 1) < 2 ^ a → (δ.natAbs ≤ 1 → Down d g) →
      Up d E (approxSqrtLoop d n g δ) ∧ Down d (approxSqrtLoop d n g δ)) :
    ∀ (j n : Nat) (g δ : Int), n0 + j ≤ n → Up d E g → g - (S + 1) < 2 ^ (a + j) → (δ.natAbs ≤ 1 → Down d g) →
      Up d E (approxSqrtLoop d n g δ) ∧ Down d (approxSqrtLoop d n g δ) := by
  intro j
  induction j with
  | zero => intro n g δ hn hu hg hdn; exact base n g δ hn hu hg hdn
  | succ j ih =>
    intro n g δ hn hu hm hdn
    rcases Nat.lt_or_ge 1 δ.natAbs with c | c
    · obtain ⟨n, rfl⟩ : ∃ k, n = k + 1 := ⟨n - 1, by omega⟩
      rw [loop_next _ hu.1 c]
      obtain ⟨u, dn, lt, ge, le⟩ := h.next hu
      generalize (Dec.quo d g - g).tdiv 2 = t at *
      refine ih n _ _ (by omega) u ?_ dn
      rcases le_or_gt S g with c | c
      · have := ge c
        rw [← Nat.add_assoc, pow_succ] at hm
        omega
      · have := lt c
        have : (0 : Int) < 2 ^ (a + j) := by positivity
        omega
    · rw [loop_stop _ c]; exact ⟨hu, hdn c⟩

/-- Close to the root the number of correct digits doubles. -/
theorem Setup.square {d E R S g : Int} (h : Setup d E R S) (hu : Up d E g) (hs : S ≤ g) :
    2 * g * (g + (Dec.quo d g - g).tdiv 2 - (S + 1)) ≤ (g - S) * (g - S) := by
  obtain ⟨b1, -⟩ := quo_two (d := d) (by have := h.d_pos; omega) hu.1
  have hh := half_cases (Dec.quo d g) g
  have h1 := hu.1
  have hi := h.hi
  generalize (Dec.quo d g - g).tdiv 2 = t at *
  generalize Dec.quo d g = q at *
  generalize d * one = N at *
  have e : 2 * (g + t) ≤ g + q + 1 := by omega
  have e2 : 2 * (g + t) * g ≤ (g + q + 1) * g := Int.mul_le_mul_of_nonneg_right e (by omega)
  nlinarith

theorem Setup.far {d E R S : Int} (hS : Setup d E R S) (hd : 10 ^ 85 < d) (hle : d < 2 ^ 315) :
    Up d E (approxSqrt d) ∧ Down d (approxSqrt d) := by
  have hp : (2 : Int) ^ 170 ≤ S := by
    by_contra hc
    have h1 := mul_self_le_mul_self (show 0 ≤ S by have := hS.S_pos; omega) (show S ≤ 2 ^ 170 - 1 by omega)
    have h2 := hS.hi
    unfold one at h2
    omega
  rw [approxSqrt_first (by omega) (by unfold one; omega)]
  have dn := down_of (d := d) (g := one) (by omega) (by decide)
  have hh := half_cases d one
  rw [quo_one] at dn
  obtain ⟨k, rfl⟩ : ∃ k, d = one + k := ⟨d - one, by omega⟩
  generalize (one + k - one).tdiv 2 = t at *
  have hk : 3000000000 < k := by unfold one at *; omega
  have u : Up (one + k) E (one + t) := by
    refine ⟨by have := one_pos'; omega, ?_⟩
    have e1 : 4 * one + 2 * k - 1 ≤ 4 * (one + t) + 1 := by omega
    have e2 := mul_self_le_mul_self (show 0 ≤ 4 * one + 2 * k - 1 by have := one_pos'; omega) e1
    have e3 : 8 * one ≤ (2 * k - 1) * (2 * k - 1) := by
      have := mul_self_le_mul_self (show (0 : Int) ≤ 2999999999 by omega) (show 2999999999 ≤ 2 * k - 1 by omega)
      unfold one; omega
    have := hS.E_nonneg
    nlinarith
  refine hS.halve 114 61 (fun n g δ hn hu hg hdn => ?_) 200 299 _ _ (by decide) u (by unfold one at *; omega)
    fun ht => dn (by omega) (by omega) u.1
  rcases Nat.lt_or_ge 1 δ.natAbs with c | c
  · obtain ⟨n, rfl⟩ : ∃ k, n = k + 1 := ⟨n - 1, by omega⟩
    rw [loop_next _ hu.1 c]
    obtain ⟨u, dn, lt, ge, le⟩ := hS.next hu
    have sq := hS.square hu
    generalize (Dec.quo (one + k) g - g).tdiv 2 = t at *
    refine hS.loop 58 n _ _ (by omega) u ?_ dn
    rcases le_or_gt S g with c | c
    · by_contra hc
      have h1 := sq c
      have h2 := mul_self_le_mul_self (show 0 ≤ g - S by omega) (show g - S ≤ 2 ^ 114 by omega)
      have h3 : (2 * 2 ^ 170) * 2 ^ 58 ≤ 2 * g * (g + t - (S + 1)) :=
        mul_le_mul (by omega) (by omega) (by norm_num) (by omega)
      omega
    · have := lt c
      omega
  · rw [loop_stop _ c]; exact ⟨hu, hdn c⟩

/-- On all numbers above zero that can be stored the result is within one unit of the root. -/
theorem approxSqrt_close {d : Int} (hd : 0 ≤ d) (hle : d < 2 ^ 315) :
    0 ≤ approxSqrt d ∧ (d ≠ 0 → (approxSqrt d - 1) * (approxSqrt d - 1) < d * one ∧ 1 ≤ approxSqrt d) ∧
      d * one < (approxSqrt d + 1) * (approxSqrt d + 1) := by
  refine ⟨approxSqrt_nonneg d hd, ?_⟩
  rcases eq_or_lt_of_le hd with h0 | h0
  · subst h0; exact ⟨fun h => absurd rfl h, by decide⟩
  have key : ∀ {E g : Int}, Up d E g → Down d g → E ≤ 24 * g → 8 ≤ g →
      (d ≠ 0 → (g - 1) * (g - 1) < d * one ∧ 1 ≤ g) ∧ d * one < (g + 1) * (g + 1) := by
    intro E g hu hdn hE h8
    obtain ⟨-, hu⟩ := hu
    obtain ⟨-, hdn⟩ := hdn
    generalize d * one = N at *
    exact ⟨fun _ => ⟨by nlinarith, by omega⟩, by nlinarith⟩
  rcases lt_or_ge d one with c | c
  · obtain ⟨hu, hdn⟩ := approxSqrt_low (by omega) c
    have := hu.ge (B := 8) (by unfold one; omega)
    exact key hu hdn (by omega) (by omega)
  rcases le_or_gt d (one + 1500000000) with c' | c'
  · obtain ⟨e, hdn⟩ := approxSqrt_near ⟨c, c'⟩
    have hu : Up d (16 * one) (approxSqrt d) := by
      refine ⟨hdn.1, ?_⟩
      rw [e]
      obtain ⟨k, rfl⟩ : ∃ k, d = one + k := ⟨d - one, by omega⟩
      rw [show one + k - one = k by ring]
      have hk : k = 2 * (k / 2) ∨ k = 2 * (k / 2) + 1 := by omega
      have hl : 0 ≤ k / 2 := by omega
      generalize k / 2 = a at *
      rcases hk with hk | hk <;> rw [hk] <;> nlinarith [one_pos']
    exact key hu hdn (by rw [e]; omega) (by rw [e]; unfold one; omega)
  rcases le_or_gt d (10 ^ 38) with c'' | c''
  · obtain ⟨hu, hdn⟩ := approxSqrt_high c' c''
    have := hu.ge (B := 10 ^ 17) (by unfold one at *; norm_num; omega)
    exact key hu hdn (by omega) (by omega)
  · obtain ⟨S, E, hS, hE, hS1⟩ := setup_any (d := d) (by omega)
    obtain ⟨hu, hdn⟩ : Up d E (approxSqrt d) ∧ Down d (approxSqrt d) := by
      rcases le_or_gt d (10 ^ 85) with c | c
      · exact hS.high c' c
      · exact hS.far c hle
    have h1 := hS.big _ hu
    have h2 : 8 ≤ approxSqrt d := by
      by_contra hc
      have h3 := mul_self_le_mul_self (show 0 ≤ 4 * approxSqrt d + 1 by have := hu.1; omega) (show 4 * approxSqrt d + 1 ≤ 33 by omega)
      have h4 := hu.2
      unfold one at h4
      omega
    exact key hu hdn (by omega) h2

/-- On the numbers from zero to `10^20` the result is monotone. -/
theorem approxSqrt_mono {a b : Int} (ha : 0 ≤ a) (hab : a ≤ b) (hb : b ≤ 10 ^ 38) : approxSqrt a ≤ approxSqrt b := by
  rcases eq_or_lt_of_le hab with h | hab
  · rw [h]
  rcases eq_or_lt_of_le ha with h0 | h0
  · subst h0; exact approxSqrt_nonneg b (by omega)
  have dn : Down a (approxSqrt a) := by
    rcases lt_or_ge a one with c | c
    · exact (approxSqrt_low (by omega) c).2
    rcases le_or_gt a (one + 1500000000) with c' | c'
    · exact (approxSqrt_near ⟨c, c'⟩).2
    · exact (approxSqrt_high c' (by omega)).2
  have key : ∀ {E : Int}, Up b E (approxSqrt b) → E + 49 < 16 * one → approxSqrt a ≤ approxSqrt b := by
    intro E hu hE
    by_contra hc
    have h1 := mul_self_le_mul_self (show 0 ≤ 4 * approxSqrt b + 1 by have := hu.1; omega)
      (show 4 * approxSqrt b + 1 ≤ 4 * approxSqrt a - 3 by omega)
    have h2 := hu.2
    have h3 := dn.2
    have h4 : (a + 1) * one ≤ b * one := Int.mul_le_mul_of_nonneg_right (by omega) (by decide)
    nlinarith
  rcases lt_or_ge b one with c | c
  · exact key (approxSqrt_low (by omega) c).1 (by decide)
  rcases le_or_gt b (one + 1500000000) with c' | c'
  · obtain ⟨e, -⟩ := approxSqrt_near ⟨c, c'⟩
    rcases lt_or_ge a one with ca | ca
    · by_contra hc
      have h1 := mul_self_le_mul_self (show 0 ≤ 4 * one + 1 by decide)
        (show 4 * one + 1 ≤ 4 * approxSqrt a - 3 by omega)
      have h3 := dn.2
      unfold one at *
      omega
    · obtain ⟨e', -⟩ := approxSqrt_near ⟨ca, by omega⟩
      omega
  · exact key (approxSqrt_high c' hb).1 (by decide)

theorem Setup.loop_up {d E R S : Int} (h : Setup d E R S) : ∀ (n : Nat) (g δ : Int), Up d E g → Up d E (approxSqrtLoop d n g δ) := by
  intro n
  induction n with
  | zero => intro g δ hu; exact hu
  | succ n ih =>
    intro g δ hu
    rcases Nat.lt_or_ge 1 δ.natAbs with c | c
    · rw [loop_next _ hu.1 c]
      exact ih _ _ (h.next hu).1
    · rw [loop_stop _ c]; exact hu

/-- Whatever the number, the result is more than the root less one unit. -/
theorem approxSqrt_lower {d : Int} (hd : 0 ≤ d) : d * one < (approxSqrt d + 1) * (approxSqrt d + 1) := by
  rcases le_or_gt d (10 ^ 60) with c | c
  · exact (approxSqrt_close hd (by omega)).2.2
  have ho : one < 10 ^ 60 := by decide
  obtain ⟨S, E, hS, hE, hS1⟩ := setup_any (d := d) (by omega)
  have hu : Up d E (approxSqrt d) := by
    rw [approxSqrt_first (by omega) (by omega)]
    apply hS.loop_up
    have hh := half_cases d one
    obtain ⟨k, rfl⟩ : ∃ k, d = one + k := ⟨d - one, by omega⟩
    generalize (one + k - one).tdiv 2 = t at *
    have hk : 3 * one ≤ k := by unfold one at *; omega
    have := one_pos'
    refine ⟨by omega, ?_⟩
    have e1 : 4 * one + 2 * k - 1 ≤ 4 * (one + t) + 1 := by omega
    have e2 := mul_self_le_mul_self (show 0 ≤ 4 * one + 2 * k - 1 by omega) e1
    have e3 : 8 * one ≤ (2 * k - 1) * (2 * k - 1) := by nlinarith
    have := hS.E_nonneg
    nlinarith
  have hb := hS.big _ hu
  have h2 := hu.2
  nlinarith [hu.1]
end Verif.Amm

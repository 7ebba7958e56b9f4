import Verif.Model.Util
import Verif.Proofs.Dec
/-!
# C52: shared helpers
-/
namespace Verif.Props
open Verif Verif.Util

/-- Two non-empty half-open ranges overlap iff some instant lies in both. -/
theorem C52_ranges_overlap (startA endA startB endB : Int) (hA : startA < endA) (hB : startB < endB) :
    dateRangesOverlap startA endA startB endB = true ↔
      ∃ t, (startA ≤ t ∧ t < endA) ∧ (startB ≤ t ∧ t < endB) := by
  simp only [dateRangesOverlap, Bool.and_eq_true, decide_eq_true_eq]
  constructor
  · intro h; exact ⟨max startA startB, by omega, by omega⟩
  · rintro ⟨t, h⟩; omega

/-- The non-emptiness is needed: two empty ranges can be reported as overlapping. -/
theorem C52_empty_ranges : ∃ startA endA startB endB, dateRangesOverlap startA endA startB endB = true ∧
    ¬ ∃ t : Int, (startA ≤ t ∧ t < endA) ∧ (startB ≤ t ∧ t < endB) :=
  ⟨1, 1, 0, 2, by decide, by rintro ⟨t, h⟩; omega⟩

example : dateRangesOverlap 0 5 4 9 = true ∧ dateRangesOverlap 0 4 4 9 = false := by decide

/-- An instant is in a range iff it is not before the start and before the end. -/
theorem C52_range_includes (start stop t : Int) : dateRangeIncludes start stop t = true ↔ start ≤ t ∧ t < stop := by
  simp only [dateRangeIncludes, Bool.and_eq_true, decide_eq_true_eq, Bool.not_eq_true', decide_eq_false_iff_not]
  omega

/-- `DivMod` by a positive number is Euclidean division: `x = q*y + r` with `0 ≤ r < y`. -/
theorem C52_div_mod (x y : Int) (hy : 0 < y) :
    x = (divMod x y).1 * y + (divMod x y).2 ∧ 0 ≤ (divMod x y).2 ∧ (divMod x y).2 < y := by
  have hr : (x.tmod y + y).tmod y = x % y := by
    have h0 := Int.emod_nonneg x (show y ≠ 0 by omega)
    have hlt := Int.emod_lt_of_pos x hy
    have hb : 0 ≤ x.tmod y + y := by
      have := Int.lt_tmod_of_pos x hy; omega
    rw [Int.tmod_eq_emod_of_nonneg hb, Int.add_emod_right, ]
    rw [Int.tmod_def, Int.sub_emod, Int.mul_emod_right]
    simp
  have hd : x = x / y * y + x % y := by rw [Int.mul_comm]; exact (Int.mul_ediv_add_emod x y).symm
  have hq : (divMod x y).1 = x / y := by
    show (x - (x.tmod y + y).tmod y).tdiv y = x / y
    rw [hr, show x - x % y = x / y * y by omega, Int.mul_tdiv_cancel _ (by omega)]
  have hr' : (divMod x y).2 = x % y := hr
  rw [hq, hr']
  exact ⟨hd, Int.emod_nonneg x (by omega), Int.emod_lt_of_pos x hy⟩

example : divMod (-7) 3 = (-3, 2) ∧ divMod 7 3 = (2, 1) := by decide

/-- `GetShareValue` is the amount times the ratio (in units of `10^-18`), rounded towards zero; for non-negative
arguments it is the largest integer not above the product. -/
theorem C52_share_value (amount ratio : Int) (ha : 0 ≤ amount) (hr : 0 ≤ ratio) :
    getShareValue amount ratio * 10 ^ 18 ≤ amount * ratio ∧ amount * ratio < (getShareValue amount ratio + 1) * 10 ^ 18 := by
  have e : Dec.mulTruncate (Dec.ofInt amount) ratio = amount * ratio := by
    unfold Dec.mulTruncate Dec.ofInt
    rw [show amount * Dec.one * ratio = amount * ratio * Dec.one by ring, Int.mul_tdiv_cancel _ (by decide)]
  have hp := mul_nonneg ha hr
  unfold getShareValue
  rw [e, Dec.truncateInt, Int.tdiv_eq_ediv_of_nonneg hp, show Dec.one = 10 ^ 18 by decide]
  constructor
  · exact Int.ediv_mul_le _ (by decide)
  · exact Int.lt_ediv_add_one_mul_self _ (by decide)

example : getShareValue 1000 1234567890123456789 = 1234 := by decide

/-- `AddOrSet` adds to the value of the key, counting a missing key as 0, and changes no other key. -/
theorem C52_add_or_set {κ : Type} [DecidableEq κ] (m : κ → Option Int) (key : κ) (value : Int) :
    addOrSet m key value key = some ((m key).getD 0 + value) ∧ ∀ k, k ≠ key → addOrSet m key value k = m k := by
  constructor
  · unfold addOrSet
    rw [if_pos rfl]
    cases m key <;> simp
  · intro k hk; unfold addOrSet; rw [if_neg hk]

/-- `Filter` keeps exactly the elements that pass, in order; `MinInt` is the minimum. -/
theorem C52_filter_min {α : Type} (s : List α) (f : α → Bool) (a b : Int) :
    Util.filter s f = s.filter f ∧ minInt a b = min a b := by
  constructor
  · have : ∀ (l acc : List α), l.foldl (fun r x => if f x then r ++ [x] else r) acc = acc ++ l.filter f := by
      intro l
      induction l with
      | nil => intro acc; simp
      | cons x l ih =>
        intro acc
        rw [List.foldl_cons, ih, List.filter_cons]
        split <;> simp
    exact (this s []).trans (by simp)
  · unfold minInt; omega

theorem contains_iff (sub s : List Char) : contains sub s = true ↔ sub <:+: s := by
  induction s with
  | nil => simp [contains, List.isPrefixOf_iff_prefix]
  | cons c cs ih => rw [contains, Bool.or_eq_true, ih, List.isPrefixOf_iff_prefix, List.infix_cons_iff]

/-- `SafeMath` lets a computation that returns pass through, runs the handler on a panic whose value is a string that
contains "overflow" or ends in "out of bound" (in any case), and passes every other panic on unchanged. -/
theorem C52_safe_math {σ : Type} (f onOverflow : σ → Run σ) (s : σ) :
    (∀ t, f s = .returns t → safeMath f onOverflow s = .returns t) ∧
    (∀ msg t, f s = .panics (.str msg) t →
      ("overflow".toList <:+: msg.map Char.toLower ∨ "out of bound".toList <:+ msg.map Char.toLower) →
      safeMath f onOverflow s = onOverflow t) ∧
    (∀ msg t, f s = .panics (.str msg) t →
      ¬ ("overflow".toList <:+: msg.map Char.toLower ∨ "out of bound".toList <:+ msg.map Char.toLower) →
      safeMath f onOverflow s = f s) ∧
    (∀ e t, f s = .panics (.other e) t → safeMath f onOverflow s = f s) := by
  refine ⟨?_, ?_, ?_, ?_⟩
  · intro t h; unfold safeMath; rw [h]
  · intro msg t h hm
    unfold safeMath; rw [h]
    simp only
    rw [if_pos]
    simp only [isOverflow]
    rw [Bool.or_eq_true, contains_iff, List.isSuffixOf_iff_suffix]; exact hm
  · intro msg t h hm
    unfold safeMath; rw [h]
    simp only
    rw [if_neg]
    simp only [isOverflow]
    rw [Bool.or_eq_true, contains_iff, List.isSuffixOf_iff_suffix]; exact hm
  · intro e t h; unfold safeMath; rw [h]; rfl

example : isOverflow (.str "Int overflow".toList) = true ∧ isOverflow (.str "NewIntFromBigInt() out of bound".toList) = true ∧
    isOverflow (.str "division by zero".toList) = false := by decide

/-- `DecApproxEqual` does not depend on the order of its arguments; for non-negative decimals it holds if the difference is
at most 0.1% of the larger one, and only if it is at most 0.1% plus a rounding error of one unit in the 18th digit. -/
theorem C52_approx_equal (a b : Int) (ha : 0 ≤ a) (hb : 0 ≤ b) :
    decApproxEqual a b = decApproxEqual b a ∧
    (1000 * |a - b| ≤ max a b → decApproxEqual a b = some true) ∧
    (decApproxEqual a b = some true → |a - b| * 10 ^ 18 ≤ max a b * (10 ^ 15 + 1)) := by
  have main : ∀ x y : Int, 0 ≤ y → y ≤ x → ∀ r, r = decApproxEqual x y →
      (1000 * (x - y) ≤ x → r = some true) ∧ (r = some true → (x - y) * 10 ^ 18 ≤ x * (10 ^ 15 + 1)) := by
    intro x y hy hxy r hr
    subst hr
    unfold decApproxEqual
    rw [if_neg (show ¬ y > x by omega)]
    simp only
    by_cases hx : x = 0
    · have : y = 0 := by omega
      subst hx this
      simp
    · rw [if_neg (by omega), if_neg hx]
      have hx0 : 0 < x := by omega
      have hn : 0 ≤ (x - y) * Dec.one * Dec.one := mul_nonneg (mul_nonneg (by omega) (by decide)) (by decide)
      have hq : ((x - y) * Dec.one * Dec.one).tdiv x = ((x - y) * Dec.one * Dec.one) / x := Int.tdiv_eq_ediv_of_nonneg hn
      have hq0 : 0 ≤ ((x - y) * Dec.one * Dec.one) / x := Int.ediv_nonneg hn (by omega)
      have hle := Int.ediv_mul_le ((x - y) * Dec.one * Dec.one) (show x ≠ 0 by omega)
      have hlt := Int.lt_ediv_add_one_mul_self ((x - y) * Dec.one * Dec.one) hx0
      have hb := Dec.chop_bounds hq0
      simp only [Option.some.injEq, decide_eq_true_eq, Dec.quo, hq]
      generalize (x - y) * Dec.one * Dec.one / x = q at *
      constructor
      · intro h
        have h1 : q * 1000 ≤ Dec.one * Dec.one := by
          by_contra hc
          have h2 : Dec.one * Dec.one + 1 ≤ q * 1000 := by omega
          have h3 : (Dec.one * Dec.one + 1) * x ≤ q * 1000 * x := by nlinarith
          have h4 : q * x * 1000 ≤ (x - y) * Dec.one * Dec.one * 1000 := by nlinarith
          have h5 : (x - y) * 1000 * (Dec.one * Dec.one) ≤ x * (Dec.one * Dec.one) :=
            mul_le_mul_of_nonneg_right (by omega) (by decide)
          nlinarith
        have hm := Dec.chop_mono_nn hq0 (show q ≤ 1000000000000000 * Dec.one by unfold Dec.one at h1 ⊢; omega)
        rw [Dec.chop_int] at hm
        exact hm
      · intro h
        have h1 : 2 * q ≤ 2 * (1000000000000000 * Dec.one) + Dec.one := by
          unfold Dec.one at *; omega
        have h2 : (x - y) * Dec.one * Dec.one < (q + 1) * x := hlt
        have h3 : 2 * (q + 1) ≤ 2 * ((10 ^ 15 + 1) * Dec.one) := by unfold Dec.one at *; omega
        have h4 : 2 * ((q + 1) * x) ≤ 2 * ((10 ^ 15 + 1) * Dec.one * x) := by nlinarith
        have h5 : (x - y) * Dec.one * Dec.one ≤ x * (10 ^ 15 + 1) * Dec.one := by nlinarith
        have := le_of_mul_le_mul_right h5 (show (0:Int) < Dec.one by decide)
        rw [show (10:Int) ^ 18 = Dec.one by decide]; exact this
  have sym : ∀ x y : Int, y < x → decApproxEqual y x = decApproxEqual x y := by
    intro x y h
    unfold decApproxEqual
    rw [if_pos (show x > y from h), if_neg (show ¬ y > x by omega)]
  rcases lt_trichotomy a b with h | h | h
  · have hm := main b a ha (by omega) _ rfl
    rw [sym b a h, abs_of_neg (by omega), max_eq_right (by omega)]
    exact ⟨rfl, fun h' => hm.1 (by omega), fun h' => by have := hm.2 h'; rwa [neg_sub]⟩
  · subst h
    have hm := main a a ha (le_refl _) _ rfl
    simp only [sub_self, abs_zero, max_self] at hm ⊢
    exact ⟨trivial, fun _ => hm.1 (by omega), fun h' => by have := hm.2 h'; simpa using this⟩
  · have hm := main a b hb (by omega) _ rfl
    rw [sym a b h, abs_of_pos (by omega), max_eq_left (by omega)]
    exact ⟨rfl, fun h' => hm.1 (by omega), fun h' => hm.2 h'⟩

example : decApproxEqual (999 * Dec.one) (1000 * Dec.one) = some true ∧ decApproxEqual (998 * Dec.one) (1000 * Dec.one) = some false := by
  decide

end Verif.Props

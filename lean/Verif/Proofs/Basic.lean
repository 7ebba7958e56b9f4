import Verif.Model.Order
import Mathlib.Tactic.Ring
import Mathlib.Tactic.Linarith
import Mathlib.Data.List.Perm.Basic
import Mathlib.Algebra.BigOperators.Group.List.Basic
import Mathlib.Algebra.Order.BigOperators.Group.List
/-! Generic helper lemmas: sums, binary search, sorted insertion. -/
namespace Verif

theorem foldl_add_eq {α} (f : α → Int) (l : List α) (a : Int) :
    l.foldl (fun x i => x + f i) a = a + (l.map f).sum := by
  induction l generalizing a with
  | nil => simp
  | cons x xs ih => simp only [List.foldl_cons, List.map_cons, List.sum_cons, ih]; ring

theorem sum_map_le {α} (f g : α → Int) (l : List α) (h : ∀ x ∈ l, f x ≤ g x) : (l.map f).sum ≤ (l.map g).sum := by
  induction l with
  | nil => simp
  | cons x xs ih =>
    simp only [List.map_cons, List.sum_cons]
    have h1 := h x (by simp)
    have h2 := ih (fun y hy => h y (by simp [hy]))
    omega

theorem sum_map_nonneg {α} (f : α → Int) (l : List α) (h : ∀ x ∈ l, 0 ≤ f x) : 0 ≤ (l.map f).sum := by
  have := sum_map_le (fun _ => 0) f l h
  simpa using this

theorem sum_map_mul {α} (f : α → Int) (c : Int) (l : List α) : (l.map (fun x => f x * c)).sum = (l.map f).sum * c := by
  induction l with
  | nil => simp
  | cons x xs ih => simp only [List.map_cons, List.sum_cons, ih]; ring

theorem sum_map_neg {α} (f : α → Int) (l : List α) : (l.map (fun x => - f x)).sum = - (l.map f).sum := by
  induction l with
  | nil => simp
  | cons x xs ih => simp only [List.map_cons, List.sum_cons, ih]; ring

theorem sum_map_add {α} (f g : α → Int) (l : List α) :
    (l.map (fun x => f x + g x)).sum = (l.map f).sum + (l.map g).sum := by
  induction l with
  | nil => simp
  | cons x xs ih => simp only [List.map_cons, List.sum_cons, ih]; ring

theorem sum_map_sub {α} (f g : α → Int) (l : List α) :
    (l.map (fun x => f x - g x)).sum = (l.map f).sum - (l.map g).sum := by
  induction l with
  | nil => simp
  | cons x xs ih => simp only [List.map_cons, List.sum_cons, ih]; ring

theorem sum_map_congr {α} {f g : α → Int} {l : List α} (h : ∀ x ∈ l, f x = g x) : (l.map f).sum = (l.map g).sum := by
  rw [List.map_congr_left h]

theorem sum_sublist_le {α} (f : α → Int) {l l' : List α} (h : List.Sublist l l') (hn : ∀ x ∈ l', 0 ≤ f x) :
    (l.map f).sum ≤ (l'.map f).sum := by
  induction h with
  | slnil => simp
  | cons x _ ih =>
    simp only [List.map_cons, List.sum_cons]
    have := ih (fun y hy => hn y (by simp [hy])); have := hn x (by simp); omega
  | cons_cons x _ ih =>
    simp only [List.map_cons, List.sum_cons]
    have := ih (fun y hy => hn y (by simp [hy])); omega

theorem sum_perm {α} (f : α → Int) {l l' : List α} (h : l.Perm l') : (l.map f).sum = (l'.map f).sum :=
  (h.map f).sum_eq

theorem sum_filter_eq {α} (f : α → Int) (p : α → Bool) (l : List α) (h : ∀ x ∈ l, p x = false → f x = 0) :
    ((l.filter p).map f).sum = (l.map f).sum := by
  induction l with
  | nil => simp
  | cons x xs ih =>
    have ih' := ih (fun y hy => h y (by simp [hy]))
    rw [List.filter_cons]
    split
    · simp only [List.map_cons, List.sum_cons, ih']
    · rename_i hp
      have := h x (by simp) (by simpa using hp)
      simp only [List.map_cons, List.sum_cons, ih', this]; omega

/-- Insertion at the boundary of a sorted list keeps it sorted. -/
theorem pairwise_insert {α} {R : α → α → Prop} {l : List α} {x : α} (k : Nat) (hl : l.Pairwise R)
    (h1 : ∀ a ∈ l.take k, R a x) (h2 : ∀ a ∈ l.drop k, R x a) : (l.take k ++ x :: l.drop k).Pairwise R := by
  rw [List.pairwise_append]
  have hl' := hl
  rw [← List.take_append_drop k l, List.pairwise_append] at hl'
  refine ⟨hl'.1, ?_, ?_⟩
  · rw [List.pairwise_cons]; exact ⟨h2, hl'.2.1⟩
  · intro a ha b hb
    rcases List.mem_cons.1 hb with rfl | hb
    · exact h1 a ha
    · exact hl'.2.2 a ha b hb

theorem perm_insert {α} (l : List α) (x : α) (k : Nat) : (l.take k ++ x :: l.drop k).Perm (x :: l) := by
  have := @List.perm_middle _ x (l.take k) (l.drop k)
  rwa [List.take_append_drop] at this

namespace Amm

theorem searchLoop_spec (f : Nat → Bool) (n : Nat) : ∀ (fuel i j : Nat), j - i ≤ fuel → i ≤ j → j ≤ n →
    (∀ a, a < i → f a = false) → (∀ a, j ≤ a → a < n → f a = true) →
    (∀ a b, a ≤ b → b < n → f a = true → f b = true) →
    let k := searchLoop f fuel i j
    k ≤ n ∧ (∀ a, a < k → f a = false) ∧ (∀ a, k ≤ a → a < n → f a = true) := by
  intro fuel
  induction fuel with
  | zero =>
    intro i j hf hij hj h1 h2 _
    have : i = j := by omega
    subst this
    simp only [searchLoop]
    exact ⟨hj, h1, h2⟩
  | succ k ih =>
    intro i j hf hij hj h1 h2 hm
    simp only [searchLoop]
    split
    · split
      · rename_i hlt hfalse
        apply ih _ _ (by omega) (by omega) hj _ h2 hm
        intro a ha
        by_contra hc
        have := hm a ((i + j) / 2) (by omega) (by omega) (by simpa using hc)
        rw [hfalse] at this; cases this
      · rename_i hlt htrue
        apply ih _ _ (by omega) (by omega) (by omega) h1 _ hm
        intro a ha han
        exact hm _ a ha han (by simpa using htrue)
    · have : i = j := by omega
      subst this
      exact ⟨hj, h1, h2⟩

/-- `sort.Search` with a monotone predicate returns the first index where it holds (or `n`). -/
theorem sortSearch_spec (n : Nat) (f : Nat → Bool) (hm : ∀ a b, a ≤ b → b < n → f a = true → f b = true) :
    sortSearch n f ≤ n ∧ (∀ a, a < sortSearch n f → f a = false) ∧
    (∀ a, sortSearch n f ≤ a → a < n → f a = true) :=
  searchLoop_spec f n (n + 1) 0 n (by omega) (by omega) (le_refl _) (by omega) (by omega) hm

/-- `sort.Search` on the elements of a list with a predicate that is monotone along the list: splits the list. -/
theorem searchList_spec {α : Type} (l : List α) (p : α → Bool) (R : α → α → Prop) (hl : l.Pairwise R)
    (hm : ∀ a b, R a b → p a = true → p b = true) :
    let k := searchList l p
    k ≤ l.length ∧ (∀ a ∈ l.take k, p a = false) ∧ (∀ a ∈ l.drop k, p a = true) := by
  intro k
  have hmono : ∀ a b, a ≤ b → b < l.length →
      (match l[a]? with | some t => p t | none => true) = true →
      (match l[b]? with | some t => p t | none => true) = true := by
    intro a b hab hb ha
    rw [List.getElem?_eq_getElem hb]
    rw [List.getElem?_eq_getElem (by omega)] at ha
    simp only at *
    rcases Nat.lt_or_eq_of_le hab with h | h
    · exact hm _ _ (List.pairwise_iff_getElem.1 hl a b (by omega) hb h) ha
    · subst h; exact ha
  obtain ⟨h1, h2, h3⟩ := sortSearch_spec l.length _ hmono
  change searchList l p ≤ _ at h1
  change ∀ a, a < searchList l p → _ at h2
  change ∀ a, searchList l p ≤ a → _ at h3
  refine ⟨h1, ?_, ?_⟩
  · intro a ha
    obtain ⟨i, hi, rfl⟩ := List.mem_iff_getElem.1 ha
    rw [List.length_take] at hi
    have := h2 i (by omega)
    rw [List.getElem?_eq_getElem (by omega)] at this
    simpa using this
  · intro a ha
    obtain ⟨i, hi, rfl⟩ := List.mem_iff_getElem.1 ha
    rw [List.length_drop] at hi
    have := h3 (k + i) (by omega) (by omega)
    rw [List.getElem?_eq_getElem (by omega)] at this
    simpa using this

end Amm
end Verif

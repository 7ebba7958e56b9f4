import Verif.Model.Store
import Mathlib.Tactic.Linarith
import Mathlib.Tactic.Ring
import Mathlib.Algebra.BigOperators.Group.List.Basic
/-! # Facts about the ordered stores -/
namespace Verif.Dex

/-- The store invariant: strictly increasing keys. -/
def Sorted {α : Type} (key : α → Key) (l : List α) : Prop := l.Pairwise (fun a b => keyLt (key a) (key b) = true)

theorem keyLt_iff (a b : Key) : keyLt a b = true ↔ a.1 < b.1 ∨ (a.1 = b.1 ∧ a.2 < b.2) := by
  simp [keyLt]

theorem keyLt_irrefl (a : Key) : ¬ keyLt a a = true := by rw [keyLt_iff]; omega

theorem keyLt_trans {a b c : Key} (h1 : keyLt a b = true) (h2 : keyLt b c = true) : keyLt a c = true := by
  rw [keyLt_iff] at *; omega

theorem keyLt_total {a b : Key} (h : a ≠ b) (h2 : ¬ keyLt a b = true) : keyLt b a = true := by
  rw [keyLt_iff] at *
  by_contra h3
  apply h
  ext <;> omega

variable {α : Type} {key : α → Key}

theorem Sorted.nil : Sorted key ([] : List α) := List.Pairwise.nil

theorem Sorted.tail {x : α} {l : List α} (h : Sorted key (x :: l)) : Sorted key l := (List.pairwise_cons.1 h).2

theorem Sorted.head {x : α} {l : List α} (h : Sorted key (x :: l)) : ∀ y ∈ l, keyLt (key x) (key y) = true :=
  (List.pairwise_cons.1 h).1

theorem Sorted.head_ne {x : α} {l : List α} (h : Sorted key (x :: l)) : ∀ y ∈ l, key y ≠ key x := fun y hy e =>
  keyLt_irrefl (key x) (by have := h.head y hy; rwa [e] at this)

theorem Sorted.filter {l : List α} (h : Sorted key l) (p : α → Bool) : Sorted key (l.filter p) := List.Pairwise.filter p h

theorem Sorted.inj {l : List α} (h : Sorted key l) {x y : α} (hx : x ∈ l) (hy : y ∈ l) (e : key x = key y) : x = y := by
  induction l with
  | nil => cases hx
  | cons a l ih =>
    rcases List.mem_cons.1 hx with rfl | hx' <;> rcases List.mem_cons.1 hy with rfl | hy'
    · rfl
    · exact absurd e.symm (h.head_ne _ hy')
    · exact absurd e (h.head_ne _ hx')
    · exact ih h.tail hx' hy'

theorem Sorted.keys_nodup {l : List α} (h : Sorted key l) : (l.map key).Nodup := by
  induction l with
  | nil => simp
  | cons a l ih =>
    rw [List.map_cons, List.nodup_cons]
    refine ⟨?_, ih h.tail⟩
    intro hm
    obtain ⟨y, hy, e⟩ := List.mem_map.1 hm
    exact h.head_ne y hy e

theorem lookup_some_mem {l : List α} {k : Key} {x : α} (h : lookup key k l = some x) : x ∈ l ∧ key x = k := by
  unfold lookup at h
  exact ⟨List.mem_of_find?_eq_some h, by simpa using List.find?_some h⟩

theorem Sorted.lookup_iff {l : List α} (h : Sorted key l) {k : Key} {x : α} :
    lookup key k l = some x ↔ x ∈ l ∧ key x = k := by
  refine ⟨lookup_some_mem, ?_⟩
  rintro ⟨hx, rfl⟩
  induction l with
  | nil => cases hx
  | cons a l ih =>
    unfold lookup at *
    rw [List.find?_cons]
    rcases List.mem_cons.1 hx with rfl | hx'
    · simp
    · have hne := h.head_ne x hx'
      have : (key a == key x) = false := by simpa using fun e => hne e.symm
      rw [this]
      exact ih h.tail hx'

theorem lookup_none_iff {l : List α} {k : Key} : lookup key k l = none ↔ ∀ x ∈ l, key x ≠ k := by
  unfold lookup; simp

theorem Sorted.lookup_self {l : List α} (h : Sorted key l) {x : α} (hx : x ∈ l) : lookup key (key x) l = some x :=
  h.lookup_iff.2 ⟨hx, rfl⟩

theorem mem_upsert_of {v : α} : ∀ {l : List α} {x : α}, x ∈ upsert key v l → x = v ∨ x ∈ l := by
  intro l
  induction l with
  | nil => intro x h; simp [upsert] at h; exact Or.inl h
  | cons a l ih =>
    intro x h
    unfold upsert at h
    split at h
    · rcases List.mem_cons.1 h with h | h
      · exact Or.inl h
      · exact Or.inr (List.mem_cons_of_mem _ h)
    · split at h
      · rcases List.mem_cons.1 h with h | h
        · exact Or.inl h
        · exact Or.inr h
      · rcases List.mem_cons.1 h with h | h
        · exact Or.inr (by simp [h])
        · rcases ih h with h | h
          · exact Or.inl h
          · exact Or.inr (List.mem_cons_of_mem _ h)

theorem Sorted.upsert {l : List α} (h : Sorted key l) (v : α) : Sorted key (upsert key v l) := by
  induction l with
  | nil => simp [Dex.upsert, Sorted]
  | cons a l ih =>
    unfold Dex.upsert
    split
    · rename_i e
      refine List.pairwise_cons.2 ⟨?_, h.tail⟩
      intro y hy; rw [← e]; exact h.head y hy
    · rename_i hne
      split
      · rename_i hlt
        refine List.pairwise_cons.2 ⟨?_, h⟩
        intro y hy
        rcases List.mem_cons.1 hy with rfl | hy
        · exact hlt
        · exact keyLt_trans hlt (h.head y hy)
      · rename_i hnlt
        refine List.pairwise_cons.2 ⟨?_, ih h.tail⟩
        intro y hy
        rcases mem_upsert_of hy with rfl | hy
        · exact keyLt_total (Ne.symm hne) hnlt
        · exact h.head y hy

theorem lookup_cons (a : α) (l : List α) (k : Key) :
    lookup key k (a :: l) = if key a = k then some a else lookup key k l := by
  unfold lookup
  rw [List.find?_cons]
  by_cases e : key a = k
  · simp [e]
  · have : (key a == k) = false := by simpa using e
    rw [this, if_neg e]

theorem upsert_cons (v a : α) (l : List α) :
    upsert key v (a :: l) = if key a = key v then v :: l else if keyLt (key v) (key a) then v :: a :: l
      else a :: upsert key v l := by
  conv_lhs => unfold upsert

theorem lookup_upsert {l : List α} (h : Sorted key l) (v : α) (k : Key) :
    lookup key k (upsert key v l) = if key v = k then some v else lookup key k l := by
  induction l with
  | nil =>
    unfold lookup upsert
    by_cases e : key v = k <;> simp [e]
  | cons a l ih =>
    have ih := ih h.tail
    rw [upsert_cons, lookup_cons]
    by_cases e1 : key a = key v
    · rw [if_pos e1, lookup_cons, e1]
      by_cases e : key v = k
      · simp [e]
      · simp [e]
    · rw [if_neg e1]
      by_cases hlt : keyLt (key v) (key a) = true
      · rw [if_pos hlt, lookup_cons, lookup_cons]
      · rw [if_neg hlt, lookup_cons, ih]
        by_cases e : key v = k
        · have : key a ≠ k := by rw [← e]; exact e1
          simp [this, e]
        · simp [e]

theorem Sorted.mem_upsert {l : List α} (h : Sorted key l) {v x : α} :
    x ∈ Dex.upsert key v l ↔ x = v ∨ (x ∈ l ∧ key x ≠ key v) := by
  have hs := h.upsert v
  constructor
  · intro hx
    have h1 := hs.lookup_self hx
    rw [lookup_upsert h] at h1
    split at h1
    · exact Or.inl (Option.some.inj h1).symm
    · rename_i hne
      exact Or.inr ⟨(lookup_some_mem h1).1, fun e => hne e.symm⟩
  · intro hx
    rcases hx with rfl | ⟨hx, hne⟩
    · exact (lookup_some_mem (k := key x) (by rw [lookup_upsert h]; simp)).1
    · refine (lookup_some_mem (key := key) (k := key x) ?_).1
      rw [lookup_upsert h, if_neg (fun e => hne e.symm)]
      exact h.lookup_self hx

/-- Sums over the store after a write. -/
theorem sum_upsert {l : List α} (h : Sorted key l) (v : α) (f : α → Int) :
    ((upsert key v l).map f).sum =
      (l.map f).sum + f v - (match lookup key (key v) l with | some old => f old | none => 0) := by
  induction l with
  | nil => simp [upsert, lookup]
  | cons a l ih =>
    have ih := ih h.tail
    unfold upsert
    by_cases e1 : key a = key v
    · have hl : lookup key (key v) (a :: l) = some a := by unfold lookup; simp [e1]
      rw [hl]
      simp only [e1, if_true, List.map_cons, List.sum_cons]; ring
    · have hl : lookup key (key v) (a :: l) = lookup key (key v) l := by
        unfold lookup; rw [List.find?_cons]
        have : (key a == key v) = false := by simpa using e1
        rw [this]
      rw [hl]
      simp only [e1, if_false]
      by_cases hlt : keyLt (key v) (key a) = true
      · have hn : lookup key (key v) l = none := by
          rw [lookup_none_iff]
          intro x hx e
          have h1 := keyLt_trans hlt (h.head x hx)
          rw [e] at h1
          exact keyLt_irrefl _ h1
        rw [hn]
        simp only [hlt, if_true, List.map_cons, List.sum_cons]; ring
      · simp only [hlt, List.map_cons, List.sum_cons]
        simp only [Bool.false_eq_true, if_false, List.map_cons, List.sum_cons]
        rw [ih]; ring

/-- Replacing a stored object is a map over the store. -/
theorem upsert_existing {l : List α} (h : Sorted key l) {v old : α} (he : lookup key (key v) l = some old) :
    upsert key v l = l.map (fun x => if key x = key v then v else x) := by
  induction l with
  | nil => simp [lookup] at he
  | cons a l ih =>
    unfold upsert
    by_cases e1 : key a = key v
    · simp only [e1, if_true, List.map_cons]
      congr 1
      conv_lhs => rw [← List.map_id l]
      apply List.map_congr_left
      intro x hx
      have := h.head_ne x hx
      rw [e1] at this
      simp [this]
    · have hl : lookup key (key v) (a :: l) = lookup key (key v) l := by
        unfold lookup; rw [List.find?_cons]
        have : (key a == key v) = false := by simpa using e1
        rw [this]
      rw [hl] at he
      obtain ⟨hm, hk⟩ := lookup_some_mem he
      have hlt : ¬ keyLt (key v) (key a) = true := by
        intro hlt
        have h1 := keyLt_trans hlt (h.head old hm)
        rw [hk] at h1
        exact keyLt_irrefl _ h1
      simp only [e1, if_false, hlt, List.map_cons]
      simp only [Bool.false_eq_true, if_false]
      rw [ih h.tail he]

theorem lookup_filter {l : List α} (h : Sorted key l) (p : α → Bool) (k : Key) :
    lookup key k (l.filter p) = (lookup key k l).filter p := by
  cases e : lookup key k l with
  | none =>
    rw [lookup_none_iff] at e
    simp only [Option.filter_none]
    rw [lookup_none_iff]
    exact fun x hx => e x (List.mem_filter.1 hx).1
  | some x =>
    obtain ⟨hm, hk⟩ := lookup_some_mem e
    by_cases hp : p x = true
    · simp only [Option.filter_some, hp, if_true]
      exact (h.filter p).lookup_iff.2 ⟨List.mem_filter.2 ⟨hm, hp⟩, hk⟩
    · simp only [Option.filter_some, hp]
      simp only [Bool.false_eq_true, if_false]
      rw [lookup_none_iff]
      intro y hy e2
      have hy' := List.mem_filter.1 hy
      have := h.inj hy'.1 hm (by rw [e2, hk])
      subst this
      exact hp hy'.2

end Verif.Dex

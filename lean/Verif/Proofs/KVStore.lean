import Verif.Model.KVStore
import Verif.Proofs.Keys
import Verif.Props.Keys
import Mathlib.Order.Lattice
/-! # The byte store as a set of entries -/
namespace Verif.Dex.KV
open Verif Verif.Dex Verif.Dex.Keys Verif.Spec.Keys

/-- Strictly increasing keys. -/
def Ordered (kv : Store) : Prop := kv.Pairwise (fun a b => a.1 < b.1)

theorem bytes_irrefl (a : Bytes) : ¬ a < a := List.lt_irrefl a
theorem bytes_trans {a b c : Bytes} (h : a < b) (h' : b < c) : a < c := List.lt_trans h h'
theorem bytes_total {a b : Bytes} (h : a ≠ b) (h' : ¬ a < b) : b < a := by
  rcases Std.lt_trichotomy a b with h1 | h1 | h1
  · exact absurd h1 h'
  · exact absurd h1 h
  · exact h1

theorem Ordered.tail {e : Bytes × Val} {kv : Store} (h : Ordered (e :: kv)) : Ordered kv := (List.pairwise_cons.1 h).2
theorem Ordered.head {e : Bytes × Val} {kv : Store} (h : Ordered (e :: kv)) : ∀ x ∈ kv, e.1 < x.1 := (List.pairwise_cons.1 h).1

theorem Ordered.get_iff {kv : Store} (h : Ordered kv) {k : Bytes} {v : Val} : get kv k = some v ↔ (k, v) ∈ kv := by
  induction kv with
  | nil => simp [get]
  | cons e kv ih =>
    obtain ⟨k', v'⟩ := e
    unfold get
    by_cases e : k' = k
    · subst e
      rw [if_pos rfl]
      constructor
      · intro h1; cases h1; exact List.mem_cons_self ..
      · intro h1
        rcases List.mem_cons.1 h1 with h1 | h1
        · cases h1; rfl
        · exact absurd (h.head _ h1) (bytes_irrefl _)
    · rw [if_neg e, ih h.tail]
      constructor
      · exact fun h1 => List.mem_cons_of_mem _ h1
      · intro h1
        rcases List.mem_cons.1 h1 with h1 | h1
        · cases h1; exact absurd rfl e
        · exact h1

theorem Ordered.mem_set {kv : Store} (h : Ordered kv) {k : Bytes} {v : Val} {x : Bytes × Val} :
    x ∈ set kv k v ↔ x = (k, v) ∨ (x ∈ kv ∧ x.1 ≠ k) := by
  induction kv with
  | nil => simp [set]
  | cons e kv ih =>
    obtain ⟨k', v'⟩ := e
    unfold set
    by_cases e : k' = k
    · subst e
      rw [if_pos rfl]
      have : ∀ y ∈ kv, y.1 ≠ k' := fun y hy e => by
        have := h.head y hy
        rw [e] at this
        exact bytes_irrefl _ this
      constructor
      · intro h1
        rcases List.mem_cons.1 h1 with h1 | h1
        · exact Or.inl h1
        · exact Or.inr ⟨List.mem_cons_of_mem _ h1, this x h1⟩
      · rintro (h1 | ⟨h1, h2⟩)
        · rw [h1]; exact List.mem_cons_self ..
        · rcases List.mem_cons.1 h1 with h1 | h1
          · rw [h1] at h2; exact absurd rfl h2
          · exact List.mem_cons_of_mem _ h1
    · rw [if_neg e]
      by_cases hl : k < k'
      · rw [if_pos hl]
        have : ∀ y ∈ (k', v') :: kv, y.1 ≠ k := fun y hy e2 => by
          rcases List.mem_cons.1 hy with h1 | h1
          · rw [h1] at e2; exact e e2
          · have h3 := bytes_trans hl (h.head y h1)
            rw [e2] at h3
            exact bytes_irrefl _ h3
        constructor
        · intro h1
          rcases List.mem_cons.1 h1 with h1 | h1
          · exact Or.inl h1
          · exact Or.inr ⟨h1, this x h1⟩
        · rintro (h1 | ⟨h1, h2⟩)
          · rw [h1]; exact List.mem_cons_self ..
          · exact List.mem_cons_of_mem _ h1
      · rw [if_neg hl, List.mem_cons, ih h.tail, List.mem_cons]
        constructor
        · rintro (h1 | h1 | ⟨h1, h2⟩)
          · exact Or.inr ⟨Or.inl h1, by rw [h1]; exact e⟩
          · exact Or.inl h1
          · exact Or.inr ⟨Or.inr h1, h2⟩
        · rintro (h1 | ⟨h1 | h1, h2⟩)
          · exact Or.inr (Or.inl h1)
          · exact Or.inl h1
          · exact Or.inr (Or.inr ⟨h1, h2⟩)

theorem Ordered.set {kv : Store} (h : Ordered kv) (k : Bytes) (v : Val) : Ordered (set kv k v) := by
  induction kv with
  | nil => simp [KV.set, Ordered]
  | cons e kv ih =>
    obtain ⟨k', v'⟩ := e
    unfold KV.set
    by_cases e : k' = k
    · subst e
      rw [if_pos rfl]
      exact List.pairwise_cons.2 ⟨h.head, h.tail⟩
    · rw [if_neg e]
      by_cases hl : k < k'
      · rw [if_pos hl]
        refine List.pairwise_cons.2 ⟨?_, h⟩
        intro x hx
        rcases List.mem_cons.1 hx with h1 | h1
        · rw [h1]; exact hl
        · exact bytes_trans hl (h.head x h1)
      · rw [if_neg hl]
        refine List.pairwise_cons.2 ⟨?_, ih h.tail⟩
        intro x hx
        rcases h.tail.mem_set.1 hx with h1 | ⟨h1, _⟩
        · rw [h1]; exact bytes_total (fun e2 => e e2.symm) hl
        · exact h.head x h1

theorem Ordered.delete {kv : Store} (h : Ordered kv) (k : Bytes) : Ordered (delete kv k) := List.Pairwise.filter _ h

theorem mem_delete {kv : Store} {k : Bytes} {x : Bytes × Val} : x ∈ delete kv k ↔ x ∈ kv ∧ x.1 ≠ k := by
  unfold delete; simp

/-! ## Prefix iteration is filtering by prefix -/

theorem lt_of_prefix_lt {p k : Bytes} (h : p <+: k) : ¬ k < p := by
  obtain ⟨t, rfl⟩ := h
  intro hlt
  have : p ++ t < p ++ [] := by rwa [List.append_nil]
  rw [append_lt_append] at this
  exact absurd this (List.not_lt_nil _)

theorem cons_lt {a b : UInt8} {x y : Bytes} : a :: x < b :: y ↔ a < b ∨ (a = b ∧ x < y) := by
  rw [List.cons_lt_cons_iff]

theorem mem_range_last {q k : Bytes} {b : UInt8} (hb : b ≠ 255) :
    (¬ k < q ++ [b] ∧ k < q ++ [b + 1]) ↔ (q ++ [b]) <+: k := by
  have h1 : ∀ x : UInt8, x < b + 1 ↔ x ≤ b := by
    intro x
    have h2 : b.toNat < 255 := by
      have h0 := b.toNat_lt
      rcases Nat.lt_or_ge b.toNat 255 with h | h
      · exact h
      · exfalso; apply hb; apply UInt8.toNat.inj
        show b.toNat = 255
        omega
    rw [UInt8.lt_iff_toNat_lt, UInt8.le_iff_toNat_le, UInt8.toNat_add]
    have h3 : (1 : UInt8).toNat = 1 := rfl
    rw [h3, Nat.mod_eq_of_lt (by omega)]
    omega
  induction q generalizing k with
  | nil =>
    cases k with
    | nil => simp
    | cons x xs =>
      simp only [List.nil_append]
      rw [cons_lt, cons_lt, List.cons_prefix_cons, h1]
      constructor
      · rintro ⟨g1, g2⟩
        push Not at g1
        have hx : x ≤ b := by
          rcases g2 with g2 | g2
          · exact g2
          · exact absurd g2.2 (List.not_lt_nil _)
        exact ⟨UInt8.le_antisymm (UInt8.not_lt.1 g1.1) hx, List.nil_prefix⟩
      · rintro ⟨rfl, _⟩
        refine ⟨?_, Or.inl (UInt8.le_refl _)⟩
        rintro (h | h)
        · exact absurd h (UInt8.lt_irrefl _)
        · exact absurd h.2 (List.not_lt_nil _)
  | cons c q ih =>
    cases k with
    | nil => simp
    | cons x xs =>
      simp only [List.cons_append]
      rw [cons_lt, cons_lt, List.cons_prefix_cons]
      have ih := ih (k := xs)
      constructor
      · rintro ⟨g1, g2⟩
        push Not at g1
        rcases g2 with g2 | ⟨rfl, g2⟩
        · exact absurd g2 (fun h => absurd (UInt8.lt_of_lt_of_le h (UInt8.not_lt.1 g1.1)) (UInt8.lt_irrefl _))
        · exact ⟨rfl, ih.1 ⟨g1.2 rfl, g2⟩⟩
      · rintro ⟨rfl, g⟩
        obtain ⟨g1, g2⟩ := ih.2 g
        refine ⟨?_, Or.inr ⟨rfl, g2⟩⟩
        rintro (h | h)
        · exact absurd h (UInt8.lt_irrefl _)
        · exact g1 h.2

theorem mem_range_gen (r : Bytes) : ∀ (k : Bytes), ¬ k < r.reverse →
    (below (prefixEndRev r) k = true ↔ r.reverse <+: k) := by
  induction r with
  | nil => intro k _; simp [prefixEndRev, below]
  | cons b r ih =>
    intro k hk
    unfold prefixEndRev
    by_cases hb : b = 255
    · rw [if_pos hb]
      rw [List.reverse_cons] at hk ⊢
      subst hb
      have hk' : ¬ k < r.reverse := by
        intro h
        apply hk
        exact bytes_trans h (by
          have : r.reverse ++ [] < r.reverse ++ [255] := by rw [append_lt_append]; exact List.nil_lt_cons _ _
          rwa [List.append_nil] at this)
      rw [ih k hk']
      constructor
      · rintro ⟨t, rfl⟩
        cases t with
        | nil =>
          exfalso; apply hk
          rw [append_lt_append]; exact List.nil_lt_cons _ _
        | cons x t =>
          rw [append_lt_append, cons_lt] at hk
          push Not at hk
          have hx : x = 255 := by
            apply UInt8.toNat.inj
            have h1 := UInt8.le_iff_toNat_le.1 (UInt8.not_lt.1 hk.1)
            have h0 := x.toNat_lt
            have h3 : (255 : UInt8).toNat = 255 := rfl
            omega
          subst hx
          exact ⟨t, by simp⟩
      · rintro ⟨t, rfl⟩
        exact ⟨255 :: t, by simp⟩
    · rw [if_neg hb]
      rw [List.reverse_cons] at hk ⊢
      simp only [below, List.reverse_cons, decide_eq_true_eq]
      rw [← mem_range_last hb]
      exact ⟨fun h => ⟨hk, h⟩, fun h => h.2⟩

/-- A prefix iterator yields the entries whose key has the prefix, in key order. -/
theorem scan_eq (kv : Store) (pre : Bytes) : scan kv pre = kv.filter (fun e => decide (pre <+: e.1)) := by
  unfold scan iterator
  apply List.filter_congr
  intro e _
  by_cases h : e.1 < pre
  · have : ¬ pre <+: e.1 := fun hp => lt_of_prefix_lt hp h
    simp [h, this]
  · have := mem_range_gen pre.reverse e.1 (by rwa [List.reverse_reverse])
    rw [List.reverse_reverse] at this
    simp only [h, decide_false, Bool.not_false, Bool.true_and]
    rw [Bool.eq_iff_iff, this]
    simp

end Verif.Dex.KV

import Verif.Proofs.KVStore
import Verif.Spec.Disk
/-! # A byte store represents a set of entities with values -/
namespace Verif.Dex.KV
open Verif Verif.Dex Verif.Dex.Keys Verif.Spec.Keys Verif.Spec

/-- The store contains exactly the entities of `H`. -/
structure Rep (H : Entity → Val → Prop) (kv : Store) : Prop where
  ordered : Ordered kv
  mem : ∀ k v, (k, v) ∈ kv ↔ ∃ e, e.WellFormed ∧ keyOf e = some k ∧ H e v
  wf : ∀ e v, H e v → e.WellFormed

theorem Rep.congr {H H' : Entity → Val → Prop} {kv : Store} (h : Rep H kv) (hh : ∀ e v, H' e v ↔ H e v) : Rep H' kv where
  ordered := h.ordered
  mem := fun k v => by rw [h.mem]; simp only [hh]
  wf := fun e v he => h.wf e v ((hh e v).1 he)

/-- One entity is written. -/
def putH (H : Entity → Val → Prop) (e : Entity) (v : Val) (e' : Entity) (v' : Val) : Prop :=
  (e' = e ∧ v' = v) ∨ (e' ≠ e ∧ H e' v')

/-- One entity is deleted. -/
def delH (H : Entity → Val → Prop) (e : Entity) (e' : Entity) (v' : Val) : Prop := e' ≠ e ∧ H e' v'

theorem Rep.set {H : Entity → Val → Prop} {kv : Store} (h : Rep H kv) {e : Entity} (he : e.WellFormed) {k : Bytes} (hk : keyOf e = some k)
    (v : Val) : Rep (putH H e v) (set kv k v) where
  ordered := h.ordered.set k v
  mem := by
    intro k' v'
    rw [h.ordered.mem_set]
    constructor
    · rintro (h1 | ⟨h1, h2⟩)
      · cases h1; exact ⟨e, he, hk, Or.inl ⟨rfl, rfl⟩⟩
      · obtain ⟨e', w, hk', hv⟩ := (h.mem k' v').1 h1
        refine ⟨e', w, hk', Or.inr ⟨?_, hv⟩⟩
        rintro rfl
        rw [hk] at hk'
        exact h2 (Option.some.inj hk').symm
    · rintro ⟨e', w, hk', hv⟩
      rcases hv with ⟨rfl, rfl⟩ | ⟨h1, h2⟩
      · rw [hk] at hk'; cases hk'; exact Or.inl rfl
      · refine Or.inr ⟨(h.mem k' v').2 ⟨e', w, hk', h2⟩, ?_⟩
        rintro rfl
        exact h1 (Props.C32_no_collision e' e k' w he hk' hk)
  wf := by
    rintro e' v' (⟨rfl, _⟩ | ⟨_, h1⟩)
    · exact he
    · exact h.wf _ _ h1

theorem Rep.delete {H : Entity → Val → Prop} {kv : Store} (h : Rep H kv) {e : Entity} (he : e.WellFormed) {k : Bytes} (hk : keyOf e = some k) :
    Rep (delH H e) (delete kv k) where
  ordered := h.ordered.delete k
  mem := by
    intro k' v'
    rw [mem_delete, h.mem]
    constructor
    · rintro ⟨⟨e', w, hk', hv⟩, h2⟩
      refine ⟨e', w, hk', ?_, hv⟩
      rintro rfl
      rw [hk] at hk'
      exact h2 (Option.some.inj hk').symm
    · rintro ⟨e', w, hk', h1, h2⟩
      refine ⟨⟨e', w, hk', h2⟩, ?_⟩
      rintro rfl
      exact h1 (Props.C32_no_collision e' e k' w he hk' hk)
  wf := fun e' v' h1 => h.wf _ _ h1.2

theorem Rep.get {H : Entity → Val → Prop} {kv : Store} (h : Rep H kv) {e : Entity} (he : e.WellFormed) {k : Bytes} (hk : keyOf e = some k)
    {v : Val} : get kv k = some v ↔ H e v := by
  rw [h.ordered.get_iff, h.mem]
  constructor
  · rintro ⟨e', w, hk', hv⟩
    rw [← Props.C32_no_collision e' e k w he hk' hk]
    exact hv
  · intro hv; exact ⟨e, he, hk, hv⟩

theorem Rep.get_none {H : Entity → Val → Prop} {kv : Store} (h : Rep H kv) {e : Entity} (he : e.WellFormed) {k : Bytes} (hk : keyOf e = some k)
    (hn : ∀ v, ¬ H e v) : KV.get kv k = none := by
  cases hg : KV.get kv k with
  | none => rfl
  | some v => exact absurd ((h.get he hk).1 hg) (hn v)

/-- Two strictly increasing lists with the same entries are equal. -/
theorem Ordered.ext {a b : Store} (ha : Ordered a) (hb : Ordered b) (h : ∀ x, x ∈ a ↔ x ∈ b) : a = b := by
  induction a generalizing b with
  | nil =>
    cases b with
    | nil => rfl
    | cons y b => exact absurd ((h y).2 (List.mem_cons_self ..)) (List.not_mem_nil)
  | cons x a ih =>
    cases b with
    | nil => exact absurd ((h x).1 (List.mem_cons_self ..)) (List.not_mem_nil)
    | cons y b =>
      have hxy : x = y := by
        rcases List.mem_cons.1 ((h x).1 (List.mem_cons_self ..)) with h1 | h1
        · exact h1
        · rcases List.mem_cons.1 ((h y).2 (List.mem_cons_self ..)) with h2 | h2
          · exact h2.symm
          · exact absurd (bytes_trans (ha.head y h2) (hb.head x h1)) (bytes_irrefl _)
      subst hxy
      rw [ih ha.tail hb.tail]
      intro z
      constructor
      · intro hz
        rcases List.mem_cons.1 ((h z).1 (List.mem_cons_of_mem _ hz)) with h1 | h1
        · rw [h1] at hz; exact absurd (ha.head x hz) (bytes_irrefl _)
        · exact h1
      · intro hz
        rcases List.mem_cons.1 ((h z).2 (List.mem_cons_of_mem _ hz)) with h1 | h1
        · rw [h1] at hz; exact absurd (hb.head x hz) (bytes_irrefl _)
        · exact h1

/-- A scan that finds the entities `P` yields the records of a list `L` in which they are listed in key order. -/
theorem Rep.scan {H : Entity → Val → Prop} {kv : Store} (h : Rep H kv) {pre : Bytes} {P : Entity → Prop} (hs : ScanFinds pre P)
    {α : Type} (L : List α) (ent : α → Entity) (key : α → Bytes) (val : α → Val)
    (hkey : ∀ x ∈ L, keyOf (ent x) = some (key x)) (hsort : L.Pairwise (fun x y => key x < key y))
    (hin : ∀ x ∈ L, P (ent x) ∧ H (ent x) (val x)) (hout : ∀ e v, P e → H e v → ∃ x ∈ L, ent x = e ∧ val x = v) :
    scan kv pre = L.map (fun x => (key x, val x)) := by
  rw [scan_eq]
  apply Ordered.ext
  · exact List.Pairwise.filter _ h.ordered
  · exact List.Pairwise.map _ (fun _ _ h => h) hsort
  · rintro ⟨k, v⟩
    rw [List.mem_filter, h.mem, List.mem_map]
    simp only [decide_eq_true_eq]
    constructor
    · rintro ⟨⟨e, w, hk, hv⟩, hp⟩
      obtain ⟨x, hx, rfl, rfl⟩ := hout e v ((hs e k w hk).1 hp) hv
      have := hkey x hx
      rw [hk] at this
      cases this
      exact ⟨x, hx, rfl⟩
    · rintro ⟨x, hx, he⟩
      cases he
      obtain ⟨hp, hv⟩ := hin x hx
      have w := h.wf _ _ hv
      exact ⟨⟨ent x, w, hkey x hx, hv⟩, (hs _ _ w (hkey x hx)).2 hp⟩

theorem visit_map {α β : Type} (f : Bytes × Val → Option β) (L : List α) (g : α → Bytes × Val) (r : α → β)
    (h : ∀ x ∈ L, f (g x) = some (r x)) : visit f (L.map g) = some (L.map r) := by
  unfold visit
  induction L with
  | nil => rfl
  | cons x L ih =>
    rw [List.map_cons, List.mapM_cons, h x (List.mem_cons_self ..), ih (fun y hy => h y (List.mem_cons_of_mem _ hy))]
    rfl

end Verif.Dex.KV

import Verif.Proofs.Basic
/-! Grouping by batch id and sorting by priority (x/dex/amm/util.go:74-104, x/dex/types/order.go:67-117). -/
namespace Verif.Amm
open Verif

/-- Order of batches: older (smaller) ids first, the current batch (0) last. -/
def batchBefore (a b : Nat) : Prop := a ≠ 0 ∧ (b = 0 ∨ a < b)

theorem batchBefore_trans {a b c : Nat} (h1 : batchBefore a b) (h2 : batchBefore b c) : batchBefore a c := by
  unfold batchBefore at *; omega

theorem batchBefore_irrefl (a : Nat) : ¬ batchBefore a a := by
  unfold batchBefore; omega

/-- Specification of the grouping of `ps`. -/
structure GroupsOk (h : Heap) (ps : List Nat) (gs : List OrderGroup) : Prop where
  sorted : gs.Pairwise (fun a b => batchBefore a.batchId b.batchId)
  content : ∀ g ∈ gs, g.orders = ps.filter (fun p => (h p).batchId == g.batchId)
  nonempty : ∀ g ∈ gs, g.orders ≠ []
  complete : ∀ p ∈ ps, ∃ g ∈ gs, g.batchId = (h p).batchId

theorem groupsOk_add {h : Heap} {ps : List Nat} {gs : List OrderGroup} (hk : GroupsOk h ps gs) (i : Nat) :
    GroupsOk h (ps ++ [i]) (addToGroups h gs i) := by
  unfold addToGroups
  simp only
  split
  · rename_i hany
    rw [List.any_eq_true] at hany
    obtain ⟨g0, hg0, hb0⟩ := hany
    have hb0 : g0.batchId = (h i).batchId := by simpa using hb0
    set f : OrderGroup → OrderGroup :=
      fun g => if g.batchId == (h i).batchId then { g with orders := g.orders ++ [i] } else g with hf
    have hfb : ∀ g, (f g).batchId = g.batchId := by intro g; simp only [hf]; split <;> rfl
    refine ⟨?_, ?_, ?_, ?_⟩
    · rw [List.pairwise_map]
      simpa only [hfb] using hk.sorted
    · intro g' hg'
      obtain ⟨g, hg, rfl⟩ := List.mem_map.1 hg'
      rw [hfb]
      have := hk.content g hg
      simp only [hf]
      split
      · rename_i e
        have e : g.batchId = (h i).batchId := by simpa using e
        rw [List.filter_append, ← this]; simp [e]
      · rename_i e
        have e : g.batchId ≠ (h i).batchId := by simpa using e
        rw [List.filter_append, ← this]
        have : ((h i).batchId == g.batchId) = false := by simp [Ne.symm e]
        simp [this]
    · intro g' hg'
      obtain ⟨g, hg, rfl⟩ := List.mem_map.1 hg'
      simp only [hf]
      split
      · simp
      · exact hk.nonempty g hg
    · intro p hp
      rcases List.mem_append.1 hp with hp | hp
      · obtain ⟨g, hg, e⟩ := hk.complete p hp
        exact ⟨f g, List.mem_map_of_mem hg, by rw [hfb, e]⟩
      · simp at hp; subst hp
        exact ⟨f g0, List.mem_map_of_mem hg0, by rw [hfb, hb0]⟩
  · rename_i hany
    have hno : ∀ g ∈ gs, g.batchId ≠ (h i).batchId := by
      intro g hg e
      apply hany
      rw [List.any_eq_true]
      exact ⟨g, hg, by simp [e]⟩
    have hs := searchList_spec gs (fun g => groupPred (h i).batchId g.batchId) _ hk.sorted (by
      intro a b hab ha
      unfold groupPred batchBefore at *
      split at ha
      · simp at *; omega
      · rename_i h0
        rw [if_neg h0]
        split at ha
        · omega
        · split
          · rfl
          · simp at *; omega)
    set k := searchList gs (fun g => groupPred (h i).batchId g.batchId) with hkdef
    obtain ⟨_, h1, h2⟩ := hs
    refine ⟨?_, ?_, ?_, ?_⟩
    · apply pairwise_insert k hk.sorted
      · intro a ha
        have e := h1 a ha
        have hne := hno a (List.mem_of_mem_take ha)
        unfold groupPred at e
        unfold batchBefore
        simp only
        split at e
        · simp at e; omega
        · split at e
          · cases e
          · simp at e; omega
      · intro a ha
        have e := h2 a ha
        have hne := hno a (List.mem_of_mem_drop ha)
        unfold groupPred at e
        unfold batchBefore
        simp only
        split at e
        · simp at e; omega
        · split at e
          · omega
          · simp at e; omega
    · intro g hg
      rw [(perm_insert gs _ k).mem_iff] at hg
      rcases List.mem_cons.1 hg with rfl | hg
      · simp only
        rw [List.filter_append]
        have : ps.filter (fun p => (h p).batchId == (h i).batchId) = [] := by
          rw [List.filter_eq_nil_iff]
          intro p hp e
          obtain ⟨g, hg, e'⟩ := hk.complete p hp
          exact hno g hg (by rw [e']; simpa using e)
        rw [this]; simp
      · have := hk.content g hg
        rw [List.filter_append, ← this]
        have : ((h i).batchId == g.batchId) = false := by
          have := hno g hg
          simp [Ne.symm this]
        simp [this]
    · intro g hg
      rw [(perm_insert gs _ k).mem_iff] at hg
      rcases List.mem_cons.1 hg with rfl | hg
      · simp
      · exact hk.nonempty g hg
    · intro p hp
      rcases List.mem_append.1 hp with hp | hp
      · obtain ⟨g, hg, e⟩ := hk.complete p hp
        exact ⟨g, by rw [(perm_insert gs _ k).mem_iff]; exact List.mem_cons_of_mem _ hg, e⟩
      · simp at hp; subst hp
        exact ⟨_, by rw [(perm_insert gs _ k).mem_iff]; exact List.mem_cons_self, rfl⟩

theorem groupsOk_foldl {h : Heap} (qs : List Nat) : ∀ {ps : List Nat} {gs : List OrderGroup}, GroupsOk h ps gs →
    GroupsOk h (ps ++ qs) (qs.foldl (addToGroups h) gs) := by
  induction qs with
  | nil => intro ps gs hk; simpa using hk
  | cons q qs ih =>
    intro ps gs hk
    have := ih (groupsOk_add hk q)
    simpa using this

theorem groupsOk_group (h : Heap) (ps : List Nat) : GroupsOk h ps (groupOrdersByBatchId h ps) := by
  have h0 : GroupsOk h [] [] := ⟨List.Pairwise.nil, by simp, by simp, by simp⟩
  have := groupsOk_foldl ps h0
  simpa [groupOrdersByBatchId] using this

/-- Concatenating the groups gives back the orders. -/
theorem groups_flatten_perm {h : Heap} {gs : List OrderGroup} : ∀ {ps : List Nat},
    gs.Pairwise (fun a b => a.batchId ≠ b.batchId) →
    (∀ g ∈ gs, g.orders = ps.filter (fun p => (h p).batchId == g.batchId)) →
    (∀ p ∈ ps, ∃ g ∈ gs, g.batchId = (h p).batchId) → (gs.flatMap (·.orders)).Perm ps := by
  induction gs with
  | nil =>
    intro ps _ _ hc
    cases ps with
    | nil => simp
    | cons p ps => obtain ⟨g, hg, _⟩ := hc p (by simp); cases hg
  | cons g gs ih =>
    intro ps hp hcon hcomp
    rw [List.pairwise_cons] at hp
    rw [List.flatMap_cons, hcon g (by simp)]
    have := ih (ps := ps.filter (fun p => !((h p).batchId == g.batchId))) hp.2 (by
        intro g' hg'
        rw [hcon g' (by simp [hg']), List.filter_filter]
        apply List.filter_congr
        intro p _
        have := hp.1 g' hg'
        by_cases e : (h p).batchId = g'.batchId
        · simp [e, Ne.symm this]
        · simp [e])
      (by
        intro p hp'
        rw [List.mem_filter] at hp'
        obtain ⟨g', hg', e⟩ := hcomp p hp'.1
        rcases List.mem_cons.1 hg' with rfl | hg'
        · simp [e] at hp'
        · exact ⟨g', hg', e⟩)
    refine (List.Perm.append_left _ this).trans ?_
    exact List.filter_append_perm _ ps

theorem group_perm (h : Heap) (ps : List Nat) : ((groupOrdersByBatchId h ps).flatMap (·.orders)).Perm ps := by
  have hk := groupsOk_group h ps
  apply groups_flatten_perm (h := h) _ hk.content hk.complete
  refine hk.sorted.imp ?_
  intro a b hab e
  rw [e] at hab
  exact batchBefore_irrefl _ hab

/-! ### Sorting -/

theorem hasPriority_irrefl (a : Order) : a.hasPriority a = false := by
  unfold Order.hasPriority
  rw [if_neg (by simp)]
  cases a.kind <;> simp

theorem hasPriority_trans {a b c : Order} (h1 : a.hasPriority b = true) (h2 : b.hasPriority c = true) :
    a.hasPriority c = true := by
  unfold Order.hasPriority at *
  by_cases e1 : a.amount = b.amount <;> by_cases e2 : b.amount = c.amount
  · rw [if_neg (by simp [e1])] at h1
    rw [if_neg (by simp [e2])] at h2
    rw [if_neg (by simp [e1, e2])]
    cases ha : a.kind <;> cases hb : b.kind <;> cases hc : c.kind <;> simp_all <;> omega
  · rw [if_pos (by simp; omega)] at h2 ⊢
    simp at *; omega
  · rw [if_pos (by simp; omega)] at h1 ⊢
    simp at *; omega
  · rw [if_pos (by simp; omega)] at h1 h2
    simp at h1 h2
    rw [if_pos (by simp; omega)]
    simp; omega

/-- Incomparable orders. -/
def tied (a b : Order) : Prop := a.hasPriority b = false ∧ b.hasPriority a = false

theorem tied_iff (a b : Order) : tied a b ↔ a.amount = b.amount ∧
    match a.kind, b.kind with
    | .user i _, .user j _ => i = j
    | .pool i, .pool j => i = j
    | _, _ => False := by
  unfold tied Order.hasPriority
  by_cases e : a.amount = b.amount
  · rw [if_neg (by simp [e]), if_neg (by simp [e])]
    cases ha : a.kind <;> cases hb : b.kind <;> simp [e]; all_goals omega
  · rw [if_pos (by simpa using e), if_pos (by simpa using Ne.symm e)]
    simp [e]; omega

theorem tied_trans {a b c : Order} (h1 : tied a b) (h2 : tied b c) : tied a c := by
  rw [tied_iff] at *
  cases ha : a.kind <;> cases hb : b.kind <;> cases hc : c.kind <;> simp_all

theorem tied_symm {a b : Order} (h : tied a b) : tied b a := ⟨h.2, h.1⟩

/-- Priority is negatively transitive (a weak order). -/
theorem prio_of_prio_of_not {a b c : Order} (h1 : a.hasPriority b = true) (h2 : c.hasPriority b = false) :
    a.hasPriority c = true := by
  by_cases h3 : b.hasPriority c = true
  · exact hasPriority_trans h1 h3
  · have ht : tied b c := ⟨by simpa using h3, h2⟩
    by_contra hac
    have hac : a.hasPriority c = false := by simpa using hac
    by_cases hca : c.hasPriority a = true
    · have := hasPriority_trans hca h1
      rw [ht.2] at this; cases this
    · have : tied a c := ⟨hac, by simpa using hca⟩
      have := tied_trans this (tied_symm ht)
      rw [this.1] at h1; cases h1

theorem insert_perm (h : Heap) (x : Nat) (l : List Nat) : (insertByPriority h x l).Perm (x :: l) := by
  induction l with
  | nil => simp [insertByPriority]
  | cons y ys ih =>
    unfold insertByPriority
    split
    · exact (List.Perm.cons y ih).trans (List.Perm.swap x y ys)
    · exact List.Perm.refl _

theorem sort_perm (h : Heap) (l : List Nat) : (sortOrders h l).Perm l := by
  induction l with
  | nil => simp [sortOrders]
  | cons x xs ih =>
    show (insertByPriority h x (sortOrders h xs)).Perm _
    exact (insert_perm h x _).trans (ih.cons x)

theorem insert_sorted (h : Heap) (x : Nat) {l : List Nat}
    (hl : l.Pairwise (fun a b => (h b).hasPriority (h a) = false)) :
    (insertByPriority h x l).Pairwise (fun a b => (h b).hasPriority (h a) = false) := by
  induction l with
  | nil => simp [insertByPriority]
  | cons y ys ih =>
    rw [List.pairwise_cons] at hl
    unfold insertByPriority
    split
    · rename_i hyx
      rw [List.pairwise_cons]
      refine ⟨?_, ih hl.2⟩
      intro a ha
      rw [(insert_perm h x ys).mem_iff] at ha
      rcases List.mem_cons.1 ha with rfl | ha
      · by_contra hc
        have := hasPriority_trans hyx (by simpa using hc)
        rw [hasPriority_irrefl] at this; cases this
      · exact hl.1 a ha
    · rename_i hyx
      have hyx : (h y).hasPriority (h x) = false := by simpa using hyx
      rw [List.pairwise_cons]
      refine ⟨?_, by rw [List.pairwise_cons]; exact hl⟩
      intro a ha
      rcases List.mem_cons.1 ha with rfl | ha
      · exact hyx
      · by_contra hc
        have := prio_of_prio_of_not (c := h y) (by simpa using hc : (h a).hasPriority (h x) = true) hyx
        rw [hl.1 a ha] at this; cases this

theorem sort_sorted (h : Heap) (l : List Nat) :
    (sortOrders h l).Pairwise (fun a b => (h b).hasPriority (h a) = false) := by
  induction l with
  | nil => simp [sortOrders]
  | cons x xs ih =>
    show (insertByPriority h x (sortOrders h xs)).Pairwise _
    exact insert_sorted h x ih

theorem insert_stable (h : Heap) (x : Nat) (c : Order) (l : List Nat) :
    (insertByPriority h x l).filter (fun y => !(h y).hasPriority c && !c.hasPriority (h y)) =
    (x :: l).filter (fun y => !(h y).hasPriority c && !c.hasPriority (h y)) := by
  induction l with
  | nil => simp [insertByPriority]
  | cons y ys ih =>
    unfold insertByPriority
    split
    · rename_i hyx
      rw [List.filter_cons, ih]
      by_cases hx : (!(h x).hasPriority c && !c.hasPriority (h x)) = true
      · by_cases hy : (!(h y).hasPriority c && !c.hasPriority (h y)) = true
        · exfalso
          simp at hx hy
          have := tied_trans (a := h y) (b := c) (c := h x) ⟨hy.1, hy.2⟩ ⟨hx.2, hx.1⟩
          rw [this.1] at hyx; cases hyx
        · simp [List.filter_cons, hx, hy]
      · simp [List.filter_cons, hx]
    · rfl

theorem sort_stable (h : Heap) (c : Order) (l : List Nat) :
    (sortOrders h l).filter (fun y => !(h y).hasPriority c && !c.hasPriority (h y)) =
    l.filter (fun y => !(h y).hasPriority c && !c.hasPriority (h y)) := by
  induction l with
  | nil => simp [sortOrders]
  | cons x xs ih =>
    show (insertByPriority h x (sortOrders h xs)).filter _ = _
    rw [insert_stable, List.filter_cons, List.filter_cons, ih]

end Verif.Amm

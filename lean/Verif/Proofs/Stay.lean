import Verif.Proofs.Evolve
/-! # Orders and requests are deleted only at the beginning of a block -/
namespace Verif.Dex
open Verif Verif.Amm Verif.Spec

/-- No stored record disappears. -/
structure Stays (a b : State) : Prop where
  orders : ∀ o ∈ a.orders, ∃ o' ∈ b.orders, o'.key = o.key
  deps : ∀ r ∈ a.deposits, ∃ r' ∈ b.deposits, r'.key = r.key
  wds : ∀ r ∈ a.withdraws, ∃ r' ∈ b.withdraws, r'.key = r.key

theorem Stays.refl (a : State) : Stays a a := ⟨fun o h => ⟨o, h, rfl⟩, fun o h => ⟨o, h, rfl⟩, fun o h => ⟨o, h, rfl⟩⟩

theorem Stays.trans {a b c : State} (h : Stays a b) (h' : Stays b c) : Stays a c where
  orders := fun o ho => by
    obtain ⟨p, h1, e1⟩ := h.orders o ho
    obtain ⟨q, h2, e2⟩ := h'.orders p h1
    exact ⟨q, h2, e2.trans e1⟩
  deps := fun o ho => by
    obtain ⟨p, h1, e1⟩ := h.deps o ho
    obtain ⟨q, h2, e2⟩ := h'.deps p h1
    exact ⟨q, h2, e2.trans e1⟩
  wds := fun o ho => by
    obtain ⟨p, h1, e1⟩ := h.wds o ho
    obtain ⟨q, h2, e2⟩ := h'.wds p h1
    exact ⟨q, h2, e2.trans e1⟩

theorem stays_of {a b : State} (h1 : b.orders = a.orders) (h2 : b.deposits = a.deposits) (h3 : b.withdraws = a.withdraws) : Stays a b :=
  ⟨fun o h => ⟨o, h1 ▸ h, rfl⟩, fun o h => ⟨o, h2 ▸ h, rfl⟩, fun o h => ⟨o, h3 ▸ h, rfl⟩⟩

theorem stays_upsert {α : Type} {key : α → Key} {l : List α} (hs : Sorted key l) (x : α) :
    ∀ o ∈ l, ∃ o' ∈ upsert key x l, key o' = key o := by
  intro o ho
  by_cases e : key o = key x
  · exact ⟨x, hs.mem_upsert.2 (Or.inl rfl), e.symm⟩
  · exact ⟨o, hs.mem_upsert.2 (Or.inr ⟨ho, e⟩), rfl⟩

theorem stays_setOrder {s : State} (hw : WF s) (o : OrderRec) : Stays s (s.setOrder o) :=
  { Stays.refl s with orders := stays_upsert hw.ordersS o }

theorem stays_atom {a b : State} (hw : WF a) (h : Atom a b) : Stays a b := by
  have hinc : ∀ (s : State) (o : OrderRec), Stays s (s.incMM o) := by
    intro s o; unfold State.incMM; split <;> exact stays_of rfl rfl rfl
  have hdec : ∀ (s : State) (o : OrderRec), Stays s (s.decMM o) := by
    intro s o; unfold State.decMM; split <;> exact stays_of rfl rfl rfl
  cases h with
  | bank b h hg => exact stays_of rfl rfl rfl
  | newPair base quote hne hu => exact stays_of rfl rfl rfl
  | nextBatch pair lp g hp ho => exact stays_of rfl rfl rfl
  | newPool => exact stays_of rfl rfl rfl
  | disablePool => exact stays_of rfl rfl rfl
  | mint => exact stays_of rfl rfl rfl
  | burn => split <;> exact stays_of rfl rfl rfl
  | newDeposit pool r b => exact ⟨fun o h => ⟨o, h, rfl⟩, stays_upsert hw.depsS r, fun o h => ⟨o, h, rfl⟩⟩
  | newWithdraw pool r b => exact ⟨fun o h => ⟨o, h, rfl⟩, fun o h => ⟨o, h, rfl⟩, stays_upsert hw.wdsS r⟩
  | finDeposit r r' b => exact ⟨fun o h => ⟨o, h, rfl⟩, stays_upsert hw.depsS r', fun o h => ⟨o, h, rfl⟩⟩
  | finWithdraw r r' b => exact ⟨fun o h => ⟨o, h, rfl⟩, fun o h => ⟨o, h, rfl⟩, stays_upsert hw.wdsS r'⟩
  | newOrder pair o b =>
    refine Stays.trans ?_ (hinc _ o)
    exact ⟨stays_upsert hw.ordersS o, fun o h => ⟨o, h, rfl⟩, fun o h => ⟨o, h, rfl⟩⟩
  | updOrder o o' => exact stays_setOrder hw o'
  | finOrder o o' b =>
    refine Stays.trans ?_ (hdec _ o')
    exact ⟨stays_upsert hw.ordersS o', fun o h => ⟨o, h, rfl⟩, fun o h => ⟨o, h, rfl⟩⟩

theorem stays_reach {a b : State} (hw : WF a) (h : Reach a b) : Stays a b :=
  reach_rel Stays.refl (fun _ _ _ => Stays.trans) (fun _ _ => stays_atom) hw h

end Verif.Dex

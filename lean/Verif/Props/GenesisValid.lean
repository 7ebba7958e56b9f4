import Verif.Proofs.GenesisValid
import Verif.Proofs.Example
/-! # Genesis validation and import, validity of parameters (C67) -/
namespace Verif.Props
open Verif Verif.Amm Verif.Dex Verif.Spec

/-- **C67** The parameters accepted by validation are exactly the `ParamsValid` ones; in particular neither the limit ratio nor the
fee rate is bounded above and the tick precision is not restricted. -/
theorem C67_params_valid_iff (p : Params) : p.validate = true ↔ ParamsValid p := params_valid_iff p

/-- **C67** A genesis state passes validation exactly if it is consistent in the sense of `GenesisValid`. -/
theorem C67_genesis_valid_iff (g : GenesisState) : g.validate = true ↔ GenesisValid g := genesis_valid_iff g

/-- **C67** The import of a consistent genesis state stores exactly its content, in whatever order the records are listed, and moves
no coins; an inconsistent one is refused. -/
theorem C67_import (g : GenesisState) (s0 : State) (he : EmptyModule s0) :
    (GenesisValid g → CountersOnce g → ∃ s', initGenesis g s0 = some s' ∧ Imported g s0 s') ∧
    (¬ GenesisValid g → initGenesis g s0 = none) := by
  refine ⟨initGenesis_spec he, fun hn => ?_⟩
  unfold initGenesis
  rw [if_pos]
  by_contra hv
  exact hn ((genesis_valid_iff g).1 (by simpa using hv))

/-- A genesis state with a pair that has handed out no order id yet, although an order with id 1 is listed. -/
private def demoGenesis (lastOrderId : Nat) : GenesisState where
  params := Demo.params
  lastPairId := 2
  lastPoolId := 1
  pairs := [⟨2, .native 1, .native 0, 0, none, 1⟩, ⟨1, .native 0, .native 1, lastOrderId, some 1000000000000000000, 3⟩]
  pools := []
  deposits := []
  withdraws := []
  orders := [⟨.limit, 1, 1, 1, 3, .sell, .native 0, .native 1, 20000, 20000, 0, 1000000000000000000, 20000, 20000, 2, 1000,
    .notMatched⟩]
  numMM := [⟨3, 1, 1⟩]

/-- Non-vacuity: the genesis state is valid, though its pairs are not listed in order, and can be imported. -/
example : GenesisValid (demoGenesis 1) ∧ CountersOnce (demoGenesis 1) ∧ EmptyModule Demo.s0 ∧ ParamsValid (demoGenesis 1).params ∧
    (initGenesis (demoGenesis 1) Demo.s0).map (fun s => (s.pairs.map (·.id), s.orders.length, s.numMM 3 1)) =
      some ([1, 2], 1, some 1) := by
  refine ⟨(C67_genesis_valid_iff _).1 (by decide +kernel), by unfold CountersOnce; decide +kernel,
    ⟨rfl, rfl, rfl, rfl, rfl, fun _ _ => rfl⟩, (C67_params_valid_iff _).1 (by decide +kernel), by decide +kernel⟩

/-- **C67** Validation does not look at the last order id of a pair: a genesis state with an order beyond it is valid, and the next
order placed replaces the stored one, whose orderer gets nothing back. -/
theorem C67_valid_genesis_overwritten : ∃ (g : GenesisState) (s1 s2 : State) (o : OrderRec), GenesisValid g ∧ CountersOnce g ∧
    initGenesis g Demo.s0 = some s1 ∧
    step Demo.env (.limitOrder ⟨2, 1, .buy, ⟨.native 1, 50000⟩, .native 0, 1000000000000000000, 50000, 100⟩) s1 = some s2 ∧
    s1.orders = [o] ∧ Unfinished o ∧ (∃ o' ∈ s2.orders, o'.orderer = 2) ∧ (∀ o' ∈ s2.orders, o'.orderer ≠ o.orderer) ∧
    s2.bank.bal (.user o.orderer) o.offerDenom = s1.bank.bal (.user o.orderer) o.offerDenom := by
  have h1 : ∃ s1, initGenesis (demoGenesis 0) Demo.s0 = some s1 := by
    rw [← Option.isSome_iff_exists]; decide +kernel
  obtain ⟨s1, h1⟩ := h1
  have hv : GenesisValid (demoGenesis 0) := (C67_genesis_valid_iff _).1 (by decide +kernel)
  have hc : CountersOnce (demoGenesis 0) := by unfold CountersOnce; decide +kernel
  obtain ⟨s1', e1, hi⟩ := (C67_import (demoGenesis 0) Demo.s0 ⟨rfl, rfl, rfl, rfl, rfl, fun _ _ => rfl⟩).1 hv hc
  rw [h1] at e1
  cases e1
  have f : ((initGenesis (demoGenesis 0) Demo.s0).bind (step Demo.env
      (.limitOrder ⟨2, 1, .buy, ⟨.native 1, 50000⟩, .native 0, 1000000000000000000, 50000, 100⟩))).map
        (fun s => (s.orders.map (·.orderer), s.bank.bal (.user 3) (.native 0))) = some ([2], 1000000000) := by decide +kernel
  rw [h1] at f
  obtain ⟨s2, h2⟩ : ∃ s2, step Demo.env (.limitOrder ⟨2, 1, .buy, ⟨.native 1, 50000⟩, .native 0, 1000000000000000000, 50000, 100⟩) s1 =
      some s2 := ⟨_, rfl⟩
  rw [Option.bind_some, h2] at f
  simp only [Option.map_some, Option.some.injEq, Prod.mk.injEq] at f
  obtain ⟨f, fb⟩ := f
  have ho : s1.orders = (demoGenesis 0).orders := List.perm_singleton.1 hi.orders
  have hm : ∀ o' ∈ s2.orders, o'.orderer = 2 := by
    intro o' ho'
    have := List.mem_map_of_mem (f := fun o : OrderRec => o.orderer) ho'
    rw [f] at this
    simpa using this
  refine ⟨demoGenesis 0, s1, s2, _, hv, hc, h1, h2, ho, by decide, ?_, ?_, ?_⟩
  · cases hs : s2.orders with
    | nil => rw [hs] at f; cases f
    | cons a l => exact ⟨a, by simp, hm a (by rw [hs]; simp)⟩
  · intro o' ho'
    rw [hm o' ho']
    decide
  · rw [hi.bank]
    exact fb

end Verif.Props

import Verif.Proofs.Steps
/-! # A concrete chain, used to show that the hypotheses of the theorems can be met -/
namespace Verif.Dex.Demo
open Verif Verif.Amm Verif.Dex Verif.Spec

/-- Three users with 10^9 units of the coins 0 and 1 each. -/
def bank : Bank where
  bal := fun a d => match a, d with
    | .user n, .native k => if (n = 1 ∨ n = 2 ∨ n = 3) ∧ (k = 0 ∨ k = 1) then 1000000000 else 0
    | _, _ => 0
  supply := fun d => match d with
    | .native k => if k = 0 ∨ k = 1 then 3000000000 else 0
    | .pool _ => 0

/-- Parameters in the style of the defaults (x/dex/types/params.go:18-47). -/
def params : Params where
  batchSize := 1
  tickPrec := 3
  feeCollector := .other 1
  dustCollector := .other 2
  minInitialPoolCoinSupply := 1000000000000
  pairCreationFee := [⟨.native 1, 1000⟩]
  poolCreationFee := [⟨.native 1, 1000⟩]
  minInitialDepositAmount := 1000000
  maxPriceLimitRatio := 100000000000000000
  maxNumMMOrders := 10
  maxOrderLifespan := 86400
  withdrawFeeRate := 0
  maxNumActivePools := 50

def env : Env where
  sqrt := approxSqrt
  depositOverflow := fun _ _ _ _ _ => false
  withdrawOverflow := fun _ _ _ _ _ => false

def s0 : State where
  bank := bank
  params := params
  lastPairId := 0
  lastPoolId := 0
  pairs := []
  pools := []
  deposits := []
  withdraws := []
  orders := []
  numMM := fun _ _ => none
  height := 1
  time := 0
  shortfall := fun _ => 0

theorem genesis : Genesis s0 where
  pairs := rfl
  pools := rfl
  deposits := rfl
  withdraws := rfl
  orders := rfl
  numMM := fun _ _ => rfl
  lastPairId := rfl
  lastPoolId := rfl
  shortfall := fun _ => rfl
  nonneg := by
    intro a d
    show 0 ≤ bank.bal a d
    unfold bank
    cases a <;> cases d <;> simp only [le_refl]
    split <;> omega
  sum := by
    intro d
    refine ⟨{.user 1, .user 2, .user 3}, ?_, ?_⟩
    · intro a ha
      show bank.bal a d = 0
      unfold bank
      cases a <;> cases d <;> simp_all
    · show ∑ a ∈ ({.user 1, .user 2, .user 3} : Finset Addr), bank.bal a d = bank.supply d
      rw [Finset.sum_insert (by decide), Finset.sum_insert (by decide), Finset.sum_singleton]
      unfold bank
      cases d with
      | native k => simp; split <;> omega
      | pool k => simp
  noPoolCoin := fun _ => rfl
  params := by decide

/-- A pair, a pool, a deposit and two orders. -/
def placed : List Op :=
  [.createPair ⟨1, .native 0, .native 1⟩,
   .createPool ⟨1, 1, [⟨.native 0, 2000000⟩, ⟨.native 1, 2000000⟩]⟩,
   .deposit ⟨2, 1, [⟨.native 0, 100000⟩, ⟨.native 1, 50000⟩]⟩,
   .mmOrder ⟨2, 1, .buy, ⟨.native 1, 3000⟩, .native 0, 1010000000000000000, 2000, 100⟩,
   .limitOrder ⟨3, 1, .sell, ⟨.native 0, 30000⟩, .native 1, 990000000000000000, 30000, 100⟩]

/-- ... then a batch and the next block. -/
def traded : List Op := placed ++ [.endBlock, .beginBlock 2 50]

/-- A state of the demo chain with a property that can be computed. -/
theorem reach (ops : List Op) (P : State → Prop) [DecidablePred P]
    (h : ((run env ops s0).map fun s => decide (P s)) = some true) : ∃ s, Reachable env s ∧ P s := by
  rw [Option.map_eq_some_iff] at h
  obtain ⟨s, hs, e⟩ := h
  exact ⟨s, ⟨_, _, genesis, hs⟩, of_decide_eq_true e⟩

end Verif.Dex.Demo

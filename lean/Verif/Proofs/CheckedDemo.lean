import Verif.Proofs.SaneDemo
import Verif.Model.Checked
/-! # A chain with users who hold very many coins -/
namespace Verif.Dex
open Verif Verif.Amm Verif.Spec

/-- Three users with `n` units of the coins 0 and 1 each. -/
def Demo.bankOf (n : Int) : Bank where
  bal := fun a d => match a, d with
    | .user i, .native k => if (i = 1 ∨ i = 2 ∨ i = 3) ∧ (k = 0 ∨ k = 1) then n else 0
    | _, _ => 0
  supply := fun d => match d with
    | .native k => if k = 0 ∨ k = 1 then 3 * n else 0
    | .pool _ => 0

/-- The demo chain with users who hold `10^40` units each. -/
def Demo.whale : State := { Demo.s0 with bank := Demo.bankOf (10 ^ 40) }

theorem Demo.whaleGenesis : Genesis Demo.whale where
  pairs := rfl
  pools := rfl
  deposits := rfl
  withdraws := rfl
  orders := rfl
  numMM := fun _ _ => rfl
  lastPairId := rfl
  lastPoolId := rfl
  shortfall := fun _ => rfl
  nonneg := by
    intro a d
    show 0 ≤ (Demo.bankOf (10 ^ 40)).bal a d
    unfold Demo.bankOf
    cases a <;> cases d <;> simp only [le_refl]
    split <;> omega
  sum := by
    intro d
    refine ⟨{.user 1, .user 2, .user 3}, ?_, ?_⟩
    · intro a ha
      show (Demo.bankOf (10 ^ 40)).bal a d = 0
      unfold Demo.bankOf
      cases a <;> cases d <;> simp_all
    · show ∑ a ∈ ({.user 1, .user 2, .user 3} : Finset Addr), (Demo.bankOf (10 ^ 40)).bal a d = (Demo.bankOf (10 ^ 40)).supply d
      rw [Finset.sum_insert (by decide), Finset.sum_insert (by decide), Finset.sum_singleton]
      unfold Demo.bankOf
      cases d with
      | native k => simp; split <;> omega
      | pool k => simp
  noPoolCoin := fun _ => rfl
  params := by decide

/-- A trade at a very high price, then a large sell order and a buy order below that price. -/
def Demo.whaleOps : List Op :=
  [.createPair ⟨1, .native 0, .native 1⟩,
   .limitOrder ⟨1, 1, .sell, ⟨.native 0, 100⟩, .native 1, 10 ^ 55, 100, 0⟩,
   .limitOrder ⟨2, 1, .buy, ⟨.native 1, 10 ^ 39⟩, .native 0, 10 ^ 55, 100, 0⟩,
   .beginBlock 1 1, .endBlock,
   .limitOrder ⟨1, 1, .sell, ⟨.native 0, 74 * 10 ^ 38⟩, .native 1, 9 * 10 ^ 54, 74 * 10 ^ 38, 1000⟩,
   .limitOrder ⟨2, 1, .buy, ⟨.native 1, 9 * 10 ^ 38⟩, .native 0, 9 * 10 ^ 54, 100, 1000⟩]

/-- A sane state of the whale chain with a property that can be computed. -/
theorem Demo.whaleReach (ops : List Op) (P : State → Bool)
    (h : (runSane Demo.env ops Demo.whale).any (fun s => P s && saneCheck Demo.env s) = true) :
    ∃ s, SaneChain Demo.env s ∧ SaneState Demo.env s ∧ P s = true := by
  rw [Option.any_eq_true] at h
  obtain ⟨s, hs, e⟩ := h
  rw [Bool.and_eq_true] at e
  exact ⟨s, runSane_sound (.genesis Demo.whaleGenesis) hs, saneCheck_sound e.2, e.1⟩

end Verif.Dex

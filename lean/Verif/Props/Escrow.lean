import Verif.Proofs.Escrow
import Verif.Proofs.SaneDemo
/-! # C36: what a pair's escrow account holds for the unfinished orders; C61: the end of a block can halt the chain -/
namespace Verif.Props
open Verif Verif.Amm Verif.Dex Verif.Spec

/-- **C36 (part)** In a sane chain a pair's escrow account holds at least the remaining offer coins of the pair's unfinished
orders in every coin but the base coin; in the base coin it lacks at most what the batches of the pair gave to buyers beyond what
they took from sellers (`shortfall`), and nothing if that is not positive.  Missing: the base coin when matching has dropped sell
amounts, where the claim is false (`C36_not_covered`). -/
theorem C36_escrow_covers_partial {env : Env} {s : State} (hc : SaneChain env s) :
    ∀ p ∈ s.pairs, (∀ d, d ≠ p.base → 0 ≤ escrowSlack s p.id d) ∧ -s.shortfall p.id ≤ escrowSlack s p.id p.base ∧
      (s.shortfall p.id ≤ 0 → ∀ d, 0 ≤ escrowSlack s p.id d) := by
  intro p hp
  have h := (escrowed_of_chain hc).pairs p hp
  have h1 : ∀ d, d ≠ p.base → 0 ≤ escrowSlack s p.id d := by
    intro d hd
    have := h d
    rw [if_neg hd] at this
    omega
  have h2 := h p.base
  rw [if_pos rfl] at h2
  refine ⟨h1, by omega, fun hz d => ?_⟩
  by_cases hd : d = p.base
  · subst hd; omega
  · exact h1 d hd

/-- **C36** An escrow address of an id that no pair has holds nothing for orders and owes nothing. -/
theorem C36_unused_escrow {env : Env} {s : State} (hc : SaneChain env s) (pid : Nat) (hp : ∀ p ∈ s.pairs, p.id ≠ pid) :
    ∀ d, 0 ≤ escrowSlack s pid d :=
  ((escrowed_of_chain hc).others pid hp).2

/-- Two ranged pools that sell 100 base coins each at the price 0.010001, a sell order of 10200 and a buy order of 10398. -/
def dustHistory : List Op :=
  [.setParams { Demo.params with tickPrec := 4 },
   .createPair ⟨1, .native 0, .native 1⟩,
   .createRangedPool ⟨1, 1, [⟨.native 0, 1000000⟩], 10000000000000000, 1000000000000000000000, 10000000000000000⟩,
   .createRangedPool ⟨1, 1, [⟨.native 0, 1000000⟩], 10000000000000000, 1000000000000000000000, 10000000000000000⟩,
   .limitOrder ⟨3, 1, .sell, ⟨.native 0, 10200⟩, .native 1, 9900000000000000, 10200, 100⟩,
   .limitOrder ⟨2, 1, .buy, ⟨.native 1, 110⟩, .native 0, 10030000000000000, 10398, 100⟩]

/-- **C36 is false**: with the default tick precision and price limits, one batch leaves the escrow account of the pair 98 base
coins short of what it holds for a resting sell order, because the buyer was given 98 base coins that no seller paid. -/
theorem C36_not_covered : ∃ s, SaneChain Demo.env s ∧ SaneState Demo.env s ∧
    (∃ p ∈ s.pairs, escrowSlack s p.id p.base = -98) ∧ (∃ o ∈ s.orders, Unfinished o ∧ o.remaining = 10000) :=
  Demo.saneReach (dustHistory ++ [.limitOrder ⟨3, 1, .sell, ⟨.native 0, 10000⟩, .native 1, 10500000000000000, 10000, 100⟩, .endBlock])
    (fun s => (∃ p ∈ s.pairs, escrowSlack s p.id p.base = -98) ∧ (∃ o ∈ s.orders, Unfinished o ∧ o.remaining = 10000))
    (by decide +kernel)

/-- **C61 is false**: in the same situation without another sell order the escrow account cannot pay the buyer, and the end of
the block fails: the chain halts. -/
theorem C61_end_block_halts : ∃ s, SaneChain Demo.env s ∧ SaneState Demo.env s ∧ step Demo.env .endBlock s = none := by
  obtain ⟨s, h1, h2, h3⟩ := Demo.saneReach dustHistory (fun s => endBlock Demo.env s = none) (by decide +kernel)
  exact ⟨s, h1, h2, h3⟩

/-- Non-vacuity: a sane chain with a traded pair, an unfinished order and a covered escrow. -/
example : ∃ s, SaneChain Demo.env s ∧ SaneState Demo.env s ∧ (∃ p ∈ s.pairs, s.shortfall p.id = 0 ∧ p.lastPrice ≠ none ∧
    0 < s.bank.bal (.pairEscrow p.id) p.base) ∧ (∃ o ∈ s.orders, Unfinished o ∧ o.openAmt < o.amount) :=
  Demo.saneReach
    [.createPair ⟨1, .native 0, .native 1⟩,
     .limitOrder ⟨3, 1, .sell, ⟨.native 0, 20000⟩, .native 1, 1000000000000000000, 20000, 100⟩,
     .limitOrder ⟨2, 1, .buy, ⟨.native 1, 10000⟩, .native 0, 1000000000000000000, 10000, 100⟩, .endBlock]
    (fun s => (∃ p ∈ s.pairs, s.shortfall p.id = 0 ∧ p.lastPrice ≠ none ∧ 0 < s.bank.bal (.pairEscrow p.id) p.base) ∧
      (∃ o ∈ s.orders, Unfinished o ∧ o.openAmt < o.amount))
    (by decide +kernel)

/-- **C61 is false for a second reason**: `NewRangedPool` divides by `1/sqrt(P) - 1/sqrt(L)`, which the 18-digit decimals may
round to zero although `sqrt(P)` differs from `sqrt(L)`.  Three ordinary transactions reach such a state: a pair, a ranged pool
between the prices 399 and 400 that holds 10044954987157 units of the quote coin, and a transfer of one unit of the base coin
to the pool's reserve account.  The end of the block then panics: the chain halts. -/
theorem C61_ranged_pool_halts : ∃ s, SaneChain Demo.env s ∧ SaneState Demo.env s ∧ s.orders = [] ∧
    (∃ pool ∈ s.pools, pool.disabled = false ∧ s.bank.bal (.poolReserve pool.id) (.native 1) = 10044954987157 ∧
      s.bank.bal (.poolReserve pool.id) (.native 0) = 1) ∧ step Demo.env .endBlock s = none := by
  obtain ⟨s, h1, h2, h3, h4, h5⟩ := Demo.richReach [.createPair ⟨1, .native 0, .native 1⟩,
      .createRangedPool ⟨1, 1, [⟨.native 1, 10044954987157⟩], 399 * 10 ^ 18, 400 * 10 ^ 18, 400 * 10 ^ 18⟩,
      .transfer 2 (.poolReserve 1) [⟨.native 0, 1⟩]]
    (fun s => s.orders = [] ∧ (∃ pool ∈ s.pools, pool.disabled = false ∧
      s.bank.bal (.poolReserve pool.id) (.native 1) = 10044954987157 ∧ s.bank.bal (.poolReserve pool.id) (.native 0) = 1) ∧
      endBlock Demo.env s = none) (by decide +kernel)
  exact ⟨s, h1, h2, h3, h4, h5⟩

end Verif.Props

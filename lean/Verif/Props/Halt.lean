import Verif.Proofs.HaltBatch
import Verif.Proofs.HighDemo
/-! # C61: when the end of a block does not halt the chain; C36: when escrow accounts stay covered -/
namespace Verif.Props
open Verif Verif.Amm Verif.Dex Verif.Spec

/-- **C61 (part)** In a sane chain the end of a block succeeds if no price is below one, the escrow accounts of the pairs are
covered, the withdraw fee rate is at most one and the pools with pending requests can be computed.  Missing: prices below one,
where a block can halt the chain (`C61_end_block_halts`), and ranged pools that cannot be computed (`C61_ranged_pool_halts`). -/
theorem C61_end_block_succeeds_partial {env : Env} {s : State} (hc : SaneChain env s) (hs : SaneState env s) (hh : HighPrices env s)
    (hcov : ∀ p ∈ s.pairs, ∀ d, 0 ≤ escrowSlack s p.id d) (hfee : s.params.withdrawFeeRate ≤ 10 ^ 18)
    (hreq : ∀ pool ∈ s.pools, HasRequest s pool → Computable env pool) :
    ∃ s', step env .endBlock s = some s' := by
  have S := sane_of_chain hc
  have hv := S.reach.validParams
  unfold Params.validate at hv
  simp only [Bool.and_eq_true, decide_eq_true_eq] at hv
  refine endBlock_total S.reach.wf hs S.orders S.prices hh ?_ (by omega) ⟨by omega, hfee⟩ hreq
  intro pid d
  by_cases hp : ∃ p ∈ s.pairs, p.id = pid
  · obtain ⟨p, h1, rfl⟩ := hp
    exact hcov p h1 d
  · exact ((escrowed_of_chain hc).others pid (fun p h1 h2 => hp ⟨p, h1, h2⟩)).2 d

/-- **C36 (part)** If no price was ever below one at the end of a block, every escrow account holds at least the remaining offer
coins of the unfinished orders of its pair, in every coin. -/
theorem C36_high_prices_partial {env : Env} {s : State} (h : HighChain env s) : ∀ pid d, 0 ≤ escrowSlack s pid d := high_slack h

/-- **C61 (part)** A chain in which no price was ever below one does not halt at a block's end at which no price is below one. -/
theorem C61_high_prices_partial {env : Env} {s : State} (hc : HighChain env s) (hs : SaneState env s) (hh : HighPrices env s)
    (hfee : s.params.withdrawFeeRate ≤ 10 ^ 18) (hreq : ∀ pool ∈ s.pools, HasRequest s pool → Computable env pool) :
    ∃ s', step env .endBlock s = some s' :=
  C61_end_block_succeeds_partial hc.sane hs hh (fun p _ d => high_slack hc p.id d) hfee hreq

/-- **C61** Executing a pending deposit request never fails, in any reachable state, if the pool can be computed. -/
theorem C61_deposit_succeeds {env : Env} {s : State} (h : Reachable env s) {r : DepReq} (hr : r ∈ s.deposits)
    (hst : r.status = .notExecuted) (hc : ∀ pool ∈ s.pools, pool.id = r.poolId → pool.disabled = false → Computable env pool) :
    ∃ s', executeDeposit env r s = some s' := deposit_ok h.wf hr hst hc

/-- **C61** Executing a pending withdraw request never fails, in any reachable state with a fee rate of at most one, if the pool
can be computed. -/
theorem C61_withdraw_succeeds {env : Env} {s : State} (h : Reachable env s) {r : WdReq} (hr : r ∈ s.withdraws)
    (hst : r.status = .notExecuted) (hfee : s.params.withdrawFeeRate ≤ 10 ^ 18)
    (hc : ∀ pool ∈ s.pools, pool.id = r.poolId → pool.disabled = false → Computable env pool) :
    ∃ s', executeWithdraw env r s = some s' := by
  have hv := h.validParams
  unfold Params.validate at hv
  simp only [Bool.and_eq_true, decide_eq_true_eq] at hv
  exact withdraw_ok h.wf hr hst ⟨by omega, hfee⟩ hc

/-- Every basic pool can be computed. -/
theorem C61_basic_computable (env : Env) (pool : PoolRec) (h : pool.range = none) : Computable env pool := by
  intro rx ry ps _ _
  unfold ammPool
  rw [h]
  rfl

/-- Non-vacuity: a chain with prices of at least one, in a state with a traded pair, a basic pool, unfinished orders of both
directions, a pending deposit and a pending withdrawal. -/
example : ∃ s, HighChain Demo.env s ∧ SaneState Demo.env s ∧ HighPrices Demo.env s ∧ s.params.withdrawFeeRate ≤ 10 ^ 18 ∧
    (∀ pool ∈ s.pools, pool.range = none) ∧ (∃ p ∈ s.pairs, p.lastPrice ≠ none) ∧ s.pools ≠ [] ∧
    (∃ o ∈ s.orders, Unfinished o ∧ o.dir = .sell) ∧ (∃ o ∈ s.orders, Unfinished o ∧ o.dir = .buy) ∧
    (∃ r ∈ s.deposits, r.status = .notExecuted) ∧ (∃ r ∈ s.withdraws, r.status = .notExecuted) :=
  Demo.highReach
    [.createPair ⟨1, .native 0, .native 1⟩,
     .createPool ⟨1, 1, [⟨.native 0, 2000000⟩, ⟨.native 1, 6000000⟩]⟩,
     .limitOrder ⟨3, 1, .sell, ⟨.native 0, 20000⟩, .native 1, 3100000000000000000, 20000, 100⟩,
     .limitOrder ⟨2, 1, .buy, ⟨.native 1, 35200⟩, .native 0, 3200000000000000000, 11000, 100⟩, .endBlock, .beginBlock 2 5,
     .limitOrder ⟨3, 1, .sell, ⟨.native 0, 20000⟩, .native 1, 3100000000000000000, 20000, 100⟩,
     .limitOrder ⟨2, 1, .buy, ⟨.native 1, 35200⟩, .native 0, 3200000000000000000, 11000, 100⟩,
     .deposit ⟨2, 1, [⟨.native 0, 100000⟩, ⟨.native 1, 300000⟩]⟩,
     .withdraw ⟨1, 1, ⟨.pool 1, 1000000⟩⟩]
    (fun s => s.params.withdrawFeeRate ≤ 10 ^ 18 ∧
    (∀ pool ∈ s.pools, pool.range = none) ∧ (∃ p ∈ s.pairs, p.lastPrice ≠ none) ∧ s.pools ≠ [] ∧
    (∃ o ∈ s.orders, Unfinished o ∧ o.dir = .sell) ∧ (∃ o ∈ s.orders, Unfinished o ∧ o.dir = .buy) ∧
    (∃ r ∈ s.deposits, r.status = .notExecuted) ∧ (∃ r ∈ s.withdraws, r.status = .notExecuted))
    (by decide +kernel)

end Verif.Props

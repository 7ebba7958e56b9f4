import Verif.Spec.Trade
/-! # Specification vocabulary: when the end of a block is shown not to halt (C61) -/
namespace Verif.Spec
open Verif Verif.Amm Verif.Dex

/-- A pool of a pair can be computed from its reserves and, unless it is depleted, has a price of at least one. -/
def PoolFine (env : Env) (s : State) (pair : Pair) (pool : PoolRec) : Prop :=
  ∃ ap, ammPool env pool (s.bank.bal (.poolReserve pool.id) pair.quote) (s.bank.bal (.poolReserve pool.id) pair.base)
      (s.bank.supply (.pool pool.id)) = some ap ∧ (ap.isDepleted = false → ∃ pp, ap.price = some pp ∧ 10 ^ 18 ≤ pp)

/-- No price is below one (one unit of the base coin is worth at least one unit of the quote coin): last prices, limits of
unfinished sell orders, prices of active pools.  (The square root of the decimals is not negative and the dust is not sent to
an escrow account.) -/
structure HighPrices (env : Env) (s : State) : Prop where
  sqrt : ∀ d, 0 ≤ d → 0 ≤ env.sqrt d
  last : ∀ p ∈ s.pairs, ∀ lp, p.lastPrice = some lp → 10 ^ 18 ≤ lp
  sells : ∀ o ∈ s.orders, Unfinished o → o.dir = .sell → 10 ^ 18 ≤ o.price
  pools : ∀ pair ∈ s.pairs, ∀ pool ∈ s.pools, pool.pairId = pair.id → pool.disabled = false → PoolFine env s pair pool
  dust : ∀ id, s.params.dustCollector ≠ .pairEscrow id

/-- A pool can be computed whatever its reserves.  (Every basic pool can.) -/
def Computable (env : Env) (pool : PoolRec) : Prop := ∀ rx ry ps : Int, 0 ≤ rx → 0 ≤ ry → (ammPool env pool rx ry ps).isSome

/-- A deposit or withdrawal of the pool is pending. -/
def HasRequest (s : State) (pool : PoolRec) : Prop :=
  (∃ r ∈ s.deposits, r.poolId = pool.id ∧ r.status = .notExecuted) ∨ (∃ r ∈ s.withdraws, r.poolId = pool.id ∧ r.status = .notExecuted)

/-- A history in which before every end of block the state was sane and no price was below one. -/
inductive HighChain (env : Env) : State → Prop
  | genesis {s : State} (h : Genesis s) : HighChain env s
  | step {s s' : State} (h : HighChain env s) (op : Op) (hs : op = .endBlock → SaneState env s ∧ HighPrices env s)
      (e : Dex.step env op s = some s') : HighChain env s'

end Verif.Spec

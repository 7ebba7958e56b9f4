import Verif.Spec.Ledger
/-! # Specification vocabulary: execution of deposit and withdraw requests (C43) -/
namespace Verif.Spec
open Verif Verif.Dex

/-- `r'` is the deposit request `r` after its execution: failed without accepting anything, or succeeded with some pool coins
minted for accepted coins that are among the offered ones. -/
def DepositOutcome (r r' : DepReq) : Prop :=
  SameDeposit r r' ∧ ((r'.status = .failed ∧ r'.accepted = [] ∧ r'.minted = 0) ∨
    (r'.status = .succeeded ∧ 0 < r'.minted ∧ ∀ d, 0 ≤ amountOf r'.accepted d ∧ amountOf r'.accepted d ≤ amountOf r.coins d))

/-- `r'` is the withdraw request `r` after its execution: failed, or succeeded with something withdrawn. -/
def WithdrawOutcome (r r' : WdReq) : Prop :=
  SameWithdraw r r' ∧ ((r'.status = .failed ∧ r'.withdrawn = []) ∨
    (r'.status = .succeeded ∧ (∀ d, 0 ≤ amountOf r'.withdrawn d) ∧ ∃ d, 0 < amountOf r'.withdrawn d))

/-- Exactly the request `r` was executed, with the outcome `r'`: the offered coins leave the global escrow, the accepted ones
go to the pool, the others back to the depositor, who also gets the newly minted pool coins.  Nothing else changes, except
that the pool may be found depleted and disabled. -/
structure DepositExecuted (r r' : DepReq) (s s' : State) : Prop where
  outcome : DepositOutcome r r'
  deposits : ∀ x, x ∈ s'.deposits ↔ x = r' ∨ (x ∈ s.deposits ∧ x ≠ r)
  bank : ∀ a d, s'.bank.bal a d = s.bank.bal a d - (if a = .globalEscrow then amountOf r.coins d else 0) +
    (if a = .poolReserve r.poolId then amountOf r'.accepted d else 0) +
    (if a = .user r.depositor then amountOf r.coins d - amountOf r'.accepted d + (if d = .pool r.poolId then r'.minted else 0) else 0)
  supply : ∀ d, s'.bank.supply d = s.bank.supply d + (if d = .pool r.poolId then r'.minted else 0)
  pools : ∀ x, x.id ≠ r.poolId → (x ∈ s'.pools ↔ x ∈ s.pools)
  pool : ∀ x ∈ s'.pools, x.id = r.poolId → ∃ p ∈ s.pools, x = p ∨ (x = { p with disabled := true } ∧ r'.status = .failed)
  rest : s'.params = s.params ∧ s'.lastPairId = s.lastPairId ∧ s'.lastPoolId = s.lastPoolId ∧ s'.pairs = s.pairs ∧
    s'.withdraws = s.withdraws ∧ s'.orders = s.orders ∧ s'.numMM = s.numMM ∧ s'.height = s.height ∧ s'.time = s.time

/-- Exactly the withdraw request `r` was executed, with the outcome `r'`: the pool coins leave the global escrow, back to the
withdrawer if it failed; if it succeeded they are burnt and the withdrawn coins go from the pool to the withdrawer. -/
structure WithdrawExecuted (r r' : WdReq) (s s' : State) : Prop where
  outcome : WithdrawOutcome r r'
  withdraws : ∀ x, x ∈ s'.withdraws ↔ x = r' ∨ (x ∈ s.withdraws ∧ x ≠ r)
  bank : ∀ a d, s'.bank.bal a d = s.bank.bal a d - (if a = .globalEscrow ∧ d = .pool r.poolId then r.coin.amt else 0) -
    (if a = .poolReserve r.poolId then amountOf r'.withdrawn d else 0) +
    (if a = .user r.withdrawer then amountOf r'.withdrawn d + (if r'.status = .failed ∧ d = .pool r.poolId then r.coin.amt else 0) else 0)
  supply : ∀ d, s'.bank.supply d = s.bank.supply d - (if r'.status = .succeeded ∧ d = .pool r.poolId then r.coin.amt else 0)
  pools : ∀ x, x.id ≠ r.poolId → (x ∈ s'.pools ↔ x ∈ s.pools)
  pool : ∀ x ∈ s'.pools, x.id = r.poolId → ∃ p ∈ s.pools, x = p ∨ (x = { p with disabled := true } ∧
    (r'.status = .failed ∨ r.coin.amt = s.bank.supply (.pool r.poolId)))
  rest : s'.params = s.params ∧ s'.lastPairId = s.lastPairId ∧ s'.lastPoolId = s.lastPoolId ∧ s'.pairs = s.pairs ∧
    s'.deposits = s.deposits ∧ s'.orders = s.orders ∧ s'.numMM = s.numMM ∧ s'.height = s.height ∧ s'.time = s.time

/-- A pool that can no longer be used: no pool coins, or (basic pool) one of the reserves empty, or (ranged pool) both empty. -/
def PoolEmpty (p : PoolRec) (rx ry ps : Int) : Prop :=
  ps = 0 ∨ (p.range = none ∧ (rx = 0 ∨ ry = 0)) ∨ (rx = 0 ∧ ry = 0)

/-- The outcome `r'` of the deposit request `r`, executed in the state `s`, is the right one: it fails if the pool is disabled
or empty (then the pool is disabled) or the deposit is worth no pool coin, otherwise it succeeds with exactly the amounts given by
`amm.Deposit` for the pool's reserves and supply at that moment (the laws of `Amm.deposit` are C07, C08). -/
def DepositPriced (env : Env) (r r' : DepReq) (s s' : State) : Prop :=
  ∃ pool ∈ s.pools, ∃ pair ∈ s.pairs, pool.id = r.poolId ∧ pair.id = pool.pairId ∧
    let rx := s.bank.bal (.poolReserve pool.id) pair.quote
    let ry := s.bank.bal (.poolReserve pool.id) pair.base
    let ps := s.bank.supply (.pool pool.id)
    let x := amountOf r.coins pair.quote
    let y := amountOf r.coins pair.base
    (pool.disabled = true ∧ r'.status = .failed ∧ pool ∈ s'.pools) ∨
    (pool.disabled = false ∧ PoolEmpty pool rx ry ps ∧ r'.status = .failed ∧ { pool with disabled := true } ∈ s'.pools) ∨
    (pool.disabled = false ∧ ¬ PoolEmpty pool rx ry ps ∧ pool ∈ s'.pools ∧ ∃ ax ay pc,
      Amm.deposit (env.depositOverflow rx ry ps x y) rx ry ps x y = some (ax, ay, pc) ∧
      ((pc = 0 ∧ r'.status = .failed) ∨
       (pc ≠ 0 ∧ r'.status = .succeeded ∧ r'.minted = pc ∧ amountOf r'.accepted pair.quote = ax ∧ amountOf r'.accepted pair.base = ay)))

/-- The same for a withdraw request (the laws of `Amm.withdraw` are C09, C10).  The withdrawal of the whole supply disables the pool. -/
def WithdrawPriced (env : Env) (r r' : WdReq) (s s' : State) : Prop :=
  ∃ pool ∈ s.pools, ∃ pair ∈ s.pairs, pool.id = r.poolId ∧ pair.id = pool.pairId ∧
    let rx := s.bank.bal (.poolReserve pool.id) pair.quote
    let ry := s.bank.bal (.poolReserve pool.id) pair.base
    let ps := s.bank.supply (.pool pool.id)
    let fee := s.params.withdrawFeeRate
    (pool.disabled = true ∧ r'.status = .failed ∧ pool ∈ s'.pools) ∨
    (pool.disabled = false ∧ PoolEmpty pool rx ry ps ∧ r'.status = .failed ∧ { pool with disabled := true } ∈ s'.pools) ∨
    (pool.disabled = false ∧ ¬ PoolEmpty pool rx ry ps ∧ ∃ x y,
      Amm.withdraw (env.withdrawOverflow rx ry ps r.coin.amt fee) rx ry ps r.coin.amt fee = some (x, y) ∧
      ((x = 0 ∧ y = 0 ∧ r'.status = .failed ∧ pool ∈ s'.pools) ∨
       (¬ (x = 0 ∧ y = 0) ∧ r'.status = .succeeded ∧ amountOf r'.withdrawn pair.quote = x ∧ amountOf r'.withdrawn pair.base = y ∧
        { pool with disabled := decide (r.coin.amt = ps) } ∈ s'.pools)))

/-- The turn of one deposit request in a batch: a pending one is executed, any other is skipped. -/
def DepositTurn (env : Env) (r : DepReq) (s s' : State) : Prop :=
  (r.status = .notExecuted ∧ ∃ r', DepositExecuted r r' s s' ∧ DepositPriced env r r' s s') ∨ (r.status ≠ .notExecuted ∧ s' = s)

/-- The turn of one withdraw request. -/
def WithdrawTurn (env : Env) (r : WdReq) (s s' : State) : Prop :=
  (r.status = .notExecuted ∧ ∃ r', WithdrawExecuted r r' s s' ∧ WithdrawPriced env r r' s s') ∨ (r.status ≠ .notExecuted ∧ s' = s)

/-- One turn for each element of a list, in order. -/
inductive InTurn {α : Type} (R : α → State → State → Prop) : List α → State → State → Prop
  | nil (s : State) : InTurn R [] s s
  | cons {x : α} {xs : List α} {s t s' : State} (h : R x s t) (hs : InTurn R xs t s') : InTurn R (x :: xs) s s'

end Verif.Spec

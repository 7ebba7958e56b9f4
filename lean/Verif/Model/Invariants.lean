import Verif.Model.Genesis
/-!
# The module's invariant checks: x/dex/keeper/invariants.go

Each check returns whether it is broken; the messages are not modelled.  `SpendableCoins` is the balance: vesting accounts are
not modelled.
-/
namespace Verif.Dex
open Verif Verif.Amm

/-- `!balances.IsAllGTE(coins)` where `coins` is the sum (`Coins.Add`) of the listed coins (x/dex/keeper/invariants.go:51-52,
:72-73, :98-99): some denom of the sum has less on the account. -/
def notAllGTE (b : Bank) (a : Addr) (cs : Coins) : Bool := cs.any (fun c => decide (b.bal a c.denom < amountOf cs c.denom))

/-- `DepositCoinsEscrowInvariant` (x/dex/keeper/invariants.go:42-58). -/
def depositEscrowBroken (s : State) : Bool :=
  notAllGTE s.bank .globalEscrow ((s.deposits.filter (fun r => r.status == .notExecuted)).flatMap (fun r => r.coins))

/-- `PoolCoinEscrowInvariant` (x/dex/keeper/invariants.go:63-79). -/
def poolCoinEscrowBroken (s : State) : Bool :=
  notAllGTE s.bank .globalEscrow ((s.withdraws.filter (fun r => r.status == .notExecuted)).map (fun r => r.coin))

/-- `RemainingOfferCoinEscrowInvariant` (x/dex/keeper/invariants.go:84-111): the pairs with insufficient escrow. -/
def offerEscrowBroken (s : State) : Bool :=
  s.pairs.any (fun p => notAllGTE s.bank (.pairEscrow p.id)
    (((s.ordersOf p.id).filter (fun o => !o.status.shouldBeDeleted)).map (fun o => ⟨o.offerDenom, o.remaining⟩)))

/-- `PoolStatusInvariant` (x/dex/keeper/invariants.go:115-137). -/
def poolStatusBroken (s : State) : Bool := s.pools.any (fun p => !p.disabled && decide (s.bank.supply (.pool p.id) = 0))

/-- The number of live market-making orders counted in `numMMOrdersMap` (x/dex/keeper/invariants.go:144-155). -/
def countMM (s : State) (orderer pairId : Nat) : Nat :=
  s.orders.countP (fun o => o.typ == .mm && !o.status.shouldBeDeleted && o.orderer == orderer && o.pairId == pairId)

/-- `NumMMOrdersInvariant` (x/dex/keeper/invariants.go:141-186); `recs` are the stored counters as `IterateAllNumMMOrders`
lists them (`ListsCounters`).  A counter without live orders is reported too. -/
def numMMBroken (s : State) (recs : List NumMMRecord) : Bool :=
  recs.any (fun r => countMM s r.orderer r.pairId == 0 || r.num != countMM s r.orderer r.pairId)

/-- `AllInvariants` (x/dex/keeper/invariants.go:21-37). -/
def anyBroken (s : State) (recs : List NumMMRecord) : Bool :=
  depositEscrowBroken s || poolCoinEscrowBroken s || offerEscrowBroken s || poolStatusBroken s || numMMBroken s recs

end Verif.Dex

import Verif.Spec.History
/-! # Specification vocabulary: balances explained by the stored records (C36, C42, C43, C58) -/
namespace Verif.Spec
open Verif Verif.Dex

/-- What the order `o` says it took from the account `a` in denom `d`, less what it says it gave: an unfinished order holds
its whole offer, a finished one has used the offer less the refunded rest; the received coins were paid out.  The escrow
account of the pair holds the remaining offer coins of unfinished orders for the orderers. -/
def orderPart (a : Addr) (d : Denom) (o : OrderRec) : Int :=
  (if a = .user o.orderer ∧ d = o.offerDenom then (if Unfinished o then o.offer else o.offer - o.remaining) else 0)
  - (if a = .user o.orderer ∧ d = o.demandDenom then o.received else 0)
  - (if a = .pairEscrow o.pairId ∧ d = o.offerDenom then (if Unfinished o then o.remaining else 0) else 0)

/-- The same for a deposit request: a pending one holds the offered coins (they lie in the global escrow), a successful one has
used the accepted coins (they went to the pool) and given the minted pool coins, a failed one nothing. -/
def depositPart (a : Addr) (d : Denom) (r : DepReq) : Int :=
  (if a = .user r.depositor then
    (match r.status with
      | .notExecuted => amountOf r.coins d
      | .succeeded => amountOf r.accepted d - (if d = .pool r.poolId then r.minted else 0)
      | .failed => 0) else 0)
  - (if a = .globalEscrow ∧ r.status = .notExecuted then amountOf r.coins d else 0)
  - (if a = .poolReserve r.poolId ∧ r.status = .succeeded then amountOf r.accepted d else 0)

/-- The same for a withdraw request: the pool coin, and the withdrawn coins if it succeeded. -/
def withdrawPart (a : Addr) (d : Denom) (r : WdReq) : Int :=
  (if a = .user r.withdrawer then
    (match r.status with
      | .notExecuted => if d = r.coin.denom then r.coin.amt else 0
      | .succeeded => (if d = r.coin.denom then r.coin.amt else 0) - amountOf r.withdrawn d
      | .failed => 0) else 0)
  - (if a = .globalEscrow ∧ r.status = .notExecuted ∧ d = r.coin.denom then r.coin.amt else 0)
  + (if a = .poolReserve r.poolId ∧ r.status = .succeeded then amountOf r.withdrawn d else 0)

/-- The balance of an account, corrected by what the stored orders and requests say. -/
def ledger (s : State) (a : Addr) (d : Denom) : Int :=
  s.bank.bal a d + total (orderPart a d) s.orders + total (depositPart a d) s.deposits + total (withdrawPart a d) s.withdraws

/-- What a pair's escrow account holds beyond the remaining offer coins of the pair's unfinished orders. -/
def escrowSlack (s : State) (pairId : Nat) (d : Denom) : Int :=
  s.bank.bal (.pairEscrow pairId) d -
    total (fun o => if o.pairId = pairId ∧ o.offerDenom = d ∧ Unfinished o then o.remaining else 0) s.orders

/-- Pool coins the stored requests say were minted less those they say were burnt. -/
def mintedByRequests (s : State) (poolId : Nat) : Int :=
  total (fun r => if r.poolId = poolId ∧ r.status = .succeeded then r.minted else 0) s.deposits -
    total (fun r => if r.poolId = poolId ∧ r.status = .succeeded then r.coin.amt else 0) s.withdraws

/-- The account that signs an operation, if it is a message or a transfer. -/
def sender : Op → Option Nat
  | .createPair m => some m.creator
  | .createPool m => some m.creator
  | .createRangedPool m => some m.creator
  | .deposit m => some m.depositor
  | .withdraw m => some m.withdrawer
  | .limitOrder m => some m.orderer
  | .marketOrder m => some m.orderer
  | .mmOrder m => some m.orderer
  | .cancelOrder m => some m.orderer
  | .cancelAllOrders m => some m.orderer
  | .transfer src _ _ => some src
  | .setParams _ => none
  | .beginBlock _ _ => none
  | .endBlock => none

end Verif.Spec

import Verif.Spec.Frame
import Verif.Spec.Bank
/-! # Specification vocabulary for histories of the module (C35-C45) -/
namespace Verif.Spec
open Verif Verif.Dex

/-- A chain that has not used the module yet: no pair, pool, request, order or counter, no pool coin, and consistent balances
of the native coins, valid parameters. -/
structure Genesis (s : State) : Prop where
  pairs : s.pairs = []
  pools : s.pools = []
  deposits : s.deposits = []
  withdraws : s.withdraws = []
  orders : s.orders = []
  numMM : ∀ a p, s.numMM a p = none
  lastPairId : s.lastPairId = 0
  lastPoolId : s.lastPoolId = 0
  shortfall : ∀ id, s.shortfall id = 0
  nonneg : NonNegative s.bank
  sum : SupplyIsSum s.bank
  noPoolCoin : ∀ id, s.bank.supply (.pool id) = 0
  params : s.params.validate = true

/-- Any state a chain can get into by messages, transfers, parameter changes and blocks, in any order. -/
def Reachable (env : Env) (s : State) : Prop := ∃ s0 ops, Genesis s0 ∧ run env ops s0 = some s

/-- An order that can still trade or be cancelled. -/
def Unfinished (o : OrderRec) : Prop := o.status = .notExecuted ∨ o.status = .notMatched ∨ o.status = .partiallyMatched

instance (o : OrderRec) : Decidable (Unfinished o) := by unfold Unfinished; infer_instance

/-- Sum over a list. -/
def total {α : Type} (f : α → Int) (l : List α) : Int := (l.map f).sum

/-- Coins of the deposit requests that have not been executed. -/
def depositsPending (s : State) (d : Denom) : Int :=
  total (fun r => if r.status = .notExecuted then amountOf r.coins d else 0) s.deposits

/-- Pool coins of the withdraw requests that have not been executed. -/
def withdrawsPending (s : State) (d : Denom) : Int :=
  total (fun r => if r.status = .notExecuted ∧ r.coin.denom = d then r.coin.amt else 0) s.withdraws

/-- The number of unfinished market-making orders of an account on a pair. -/
def unfinishedMM (s : State) (account pairId : Nat) : Nat :=
  (s.orders.filter (fun o => decide (Unfinished o ∧ o.typ = .mm ∧ o.orderer = account ∧ o.pairId = pairId))).length

/-- The only difference between the balances is that `amt` units of `denom` went from `src` to `dst`. -/
def Moved (b b' : Bank) (src dst : Addr) (denom : Denom) (amt : Int) : Prop :=
  (∀ a d, b'.bal a d = b.bal a d + (if d = denom then (if a = dst then amt else 0) - (if a = src then amt else 0) else 0)) ∧
  b'.supply = b.supply

/-- `offer` is what an order must put up: a sell its amount of base coin, a buy the least integer amount of quote coin that
pays the whole order at its price. -/
def NeededOffer (dir : Amm.Dir) (price amount offer : Int) : Prop :=
  match dir with
  | .buy => price * amount ≤ offer * 1000000000000000000 ∧ (offer - 1) * 1000000000000000000 < price * amount
  | .sell => offer = amount

/-- Everything but the orders, balances, counters and the pair's last order id is the same. -/
structure OnlyOrders (pairId : Nat) (s s' : State) : Prop where
  params : s'.params = s.params
  lastPairId : s'.lastPairId = s.lastPairId
  lastPoolId : s'.lastPoolId = s.lastPoolId
  pools : s'.pools = s.pools
  deposits : s'.deposits = s.deposits
  withdraws : s'.withdraws = s.withdraws
  height : s'.height = s.height
  time : s'.time = s.time
  pairs : ∀ p, p.id ≠ pairId → (p ∈ s'.pairs ↔ p ∈ s.pairs)

/-- A new order `o` with offer coin `o.offer` was placed on the pair `p`. -/
structure OrderPlaced (p : Pair) (o : OrderRec) (s s' : State) : Prop where
  /-- the pair exists and the order belongs to it -/
  pair : p ∈ s.pairs ∧ o.pairId = p.id
  /-- the id is the next one, and no stored order of the pair has it or a greater one -/
  id : o.id = p.lastOrderId + 1 ∧ ∀ x ∈ s.orders, x.pairId = p.id → x.id < o.id
  /-- the order is new and entirely open -/
  fresh : o.status = .notExecuted ∧ o.openAmt = o.amount ∧ o.received = 0 ∧ o.batchId = p.batchId ∧ o.msgHeight = s.height
  /-- coins offered and demanded: quote for base in a buy, base for quote in a sell -/
  denoms : o.offerDenom = (if o.dir = .buy then p.quote else p.base) ∧ o.demandDenom = (if o.dir = .buy then p.base else p.quote)
  /-- the offer coin is exactly what is needed, and all of it remains -/
  offer : NeededOffer o.dir o.price o.amount o.offer ∧ o.remaining = o.offer
  /-- only the offer coin moves, from the orderer to the escrow account of the pair -/
  bank : Moved s.bank s'.bank (.user o.orderer) (.pairEscrow p.id) o.offerDenom o.offer
  /-- one more order, nothing else -/
  orders : ∀ x, x ∈ s'.orders ↔ x ∈ s.orders ∨ x = o
  newPair : { p with lastOrderId := p.lastOrderId + 1 } ∈ s'.pairs
  rest : OnlyOrders p.id s s'

/-- Effect of one refund on an account. -/
def refundEffect (o : OrderRec) (a : Addr) (d : Denom) : Int :=
  if d = o.offerDenom then (if a = .user o.orderer then o.remaining else 0) - (if a = .pairEscrow o.pairId then o.remaining else 0) else 0

/-- The orders `CancelAllOrders` cancels. -/
def CancelTarget (m : MsgCancelAllOrders) (s : State) (o : OrderRec) : Prop :=
  o.orderer = m.orderer ∧ Unfinished o ∧ (m.pairIds = [] ∨ o.pairId ∈ m.pairIds) ∧ ∃ p ∈ s.pairs, p.id = o.pairId ∧ o.batchId < p.batchId

end Verif.Spec

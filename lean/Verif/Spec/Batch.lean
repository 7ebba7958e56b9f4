import Verif.Spec.Ledger
import Verif.Spec.Request
import Verif.Spec.Sides
import Verif.Spec.Frame
import Verif.Spec.Trade
/-! # What a batch does to a pair, its orders and its pools -/
namespace Verif.Spec
open Verif Verif.Amm Verif.Dex

/-- An open amount too small to stay in the book at a price: below 100 units of base coin or worth less than 100 units of quote
coin. -/
def TooSmall (openAmt price : Int) : Prop := openAmt < 100 ∨ price * openAmt < 100 * 10 ^ 18

/-- `y` is the order `o` as it is given to the matching: same side and limit price, the remaining offer coin to spend, nothing
traded yet; a seller sells all that is open, a buyer the largest part of it that the remaining offer pays for at the limit price. -/
structure BookOrder (o : OrderRec) (y : Order) : Prop where
  terms : y.dir = o.dir ∧ y.price = o.price ∧ y.kind = .user o.id o.batchId ∧ y.offer = o.remaining
  fresh : y.openAmt = y.amount ∧ y.paid = 0 ∧ y.received = 0
  sell : o.dir = .sell → y.amount = o.openAmt
  buy : o.dir = .buy → y.amount ≤ o.openAmt ∧ o.price * y.amount ≤ o.remaining * 10 ^ 18 ∧
    ∀ a, a ≤ o.openAmt → o.price * a ≤ o.remaining * 10 ^ 18 → a ≤ y.amount

/-- The record of an order that traded as `y` says. -/
def traded (o : OrderRec) (y : Order) : OrderRec :=
  { o with openAmt := o.openAmt - (y.amount - y.openAmt), remaining := o.remaining - y.paid, received := o.received + y.received }

/-- The record of an order after the matching and the expiry of a batch at time `now`, if it traded as `y` says: completed if nothing
is open, expired if its time has come or its rest is too small, otherwise partially matched. -/
def afterTrade (now : Int) (o : OrderRec) (y : Order) (o' : OrderRec) : Prop :=
  ((traded o y).openAmt = 0 ∧ o' = { traded o y with status := .completed }) ∨
  ((traded o y).openAmt ≠ 0 ∧ (o.expireAt ≤ now ∨ TooSmall (traded o y).openAmt o.price) ∧ o' = { traded o y with status := .expired }) ∨
  ((traded o y).openAmt ≠ 0 ∧ ¬ (o.expireAt ≤ now ∨ TooSmall (traded o y).openAmt o.price) ∧ o' = { traded o y with status := .partiallyMatched })

/-- The same for an unfinished order that did not trade. -/
def afterNoTrade (now : Int) (o o' : OrderRec) : Prop :=
  ((o.expireAt ≤ now ∨ TooSmall o.openAmt o.price) ∧ o' = { o with status := .expired }) ∨
  (¬ (o.expireAt ≤ now ∨ TooSmall o.openAmt o.price) ∧ o' = { o with status := if o.status = .notExecuted then .notMatched else o.status })

/-- The orders of the result of a matching. -/
def resultOrders : Option MatchOut → List Order
  | none => []
  | some out => out.orders

/-- The last price of a pair after a matching: the match price, if there was a match. -/
def resultPrice (old : Option Int) : Option MatchOut → Option Int
  | none => old
  | some out => some out.price

/-- The rounding gain of a matching. -/
def resultDiff : Option MatchOut → Int
  | none => 0
  | some out => out.diff

/-- What the pool `id` gained in denom `d` by its trades, less what it paid. -/
def poolGain (pair : Pair) (id : Nat) (d : Denom) (ys : List Order) : Int :=
  total (fun y => if y.kind = .pool id ∧ y.openAmt < y.amount then
    (if d = pair.demandDenom y.dir then y.received else 0) - (if d = pair.offerDenom y.dir then y.paid else 0) else 0) ys

/-- What all who traded paid in denom `d`, less what they received. -/
def tradedSurplus (pair : Pair) (d : Denom) (ys : List Order) : Int :=
  total (fun y => if y.openAmt < y.amount then
    (if d = pair.offerDenom y.dir then y.paid else 0) - (if d = pair.demandDenom y.dir then y.received else 0) else 0) ys

/-- The matching and the expiry of a batch, for one pair: from `s` to `s'`. -/
structure PairBatch (env : Env) (s s' : State) (p : Pair) (book : List OrderRec) (pools : List (Nat × Pool)) (out : Option MatchOut) : Prop where
  /-- The book is matched with the pools at the last price of the pair. -/
  result : keeperMatch env s.params (book.map newUserOrder) pools p.lastPrice = some out
  nodup : book.Nodup ∧ (pools.map (·.1)).Nodup
  /-- The book holds exactly the unfinished orders of the pair that are new or not expired. -/
  bookIs : ∀ o, o ∈ book ↔ o ∈ s.orders ∧ o.pairId = p.id ∧ Unfinished o ∧ (o.status = .notExecuted ∨ s.time < o.expireAt)
  ordersAre : ∀ o ∈ book, BookOrder o (newUserOrder o)
  /-- The pools are exactly the active ones that are not empty, with their reserves and supplies. -/
  poolsAre : ∀ id ap, (id, ap) ∈ pools ↔ ∃ q ∈ s.pools, q.id = id ∧ q.pairId = p.id ∧ q.disabled = false ∧
    ammPool env q (s.bank.bal (.poolReserve id) p.quote) (s.bank.bal (.poolReserve id) p.base) (s.bank.supply (.pool id)) = some ap ∧
    ¬ PoolEmpty q (s.bank.bal (.poolReserve id) p.quote) (s.bank.bal (.poolReserve id) p.base) (s.bank.supply (.pool id))
  /-- The pair gets the match price as its last price, if there was a match. -/
  pair : { p with lastPrice := resultPrice p.lastPrice out, batchId := p.batchId + 1 } ∈ s'.pairs
  /-- Only orders of the book trade, and they trade what the result says. -/
  users : ∀ y ∈ resultOrders out, ∀ oid b, y.kind = .user oid b → ∃ o ∈ book, o.id = oid ∧ o.batchId = b
  tradedOrders : ∀ o ∈ book, ∀ y ∈ resultOrders out, y.kind = .user o.id o.batchId → y.openAmt < y.amount →
    ∃ o' ∈ s'.orders, afterTrade s.time o y o'
  otherOrders : ∀ o ∈ s.orders, o.pairId = p.id → Unfinished o →
    (∀ y ∈ resultOrders out, y.kind = .user o.id o.batchId → ¬ y.openAmt < y.amount) → ∃ o' ∈ s'.orders, afterNoTrade s.time o o'
  finished : ∀ o ∈ s.orders, o.pairId = p.id → ¬ Unfinished o → o ∈ s'.orders
  /-- Empty pools are disabled, all others stay as they are. -/
  emptyPools : ∀ q ∈ s.pools, q.pairId = p.id →
    PoolEmpty q (s.bank.bal (.poolReserve q.id) p.quote) (s.bank.bal (.poolReserve q.id) p.base) (s.bank.supply (.pool q.id)) →
    { q with disabled := true } ∈ s'.pools
  otherPools : ∀ q ∈ s.pools, q.pairId = p.id →
    ¬ PoolEmpty q (s.bank.bal (.poolReserve q.id) p.quote) (s.bank.bal (.poolReserve q.id) p.base) (s.bank.supply (.pool q.id)) →
    q ∈ s'.pools
  /-- The reserves of the pools change by exactly what they traded. -/
  reserves : ∀ q ∈ s.pools, q.pairId = p.id → ∀ d, s'.bank.bal (.poolReserve q.id) d =
    s.bank.bal (.poolReserve q.id) d + poolGain p q.id d (resultOrders out)
  /-- The escrow account of the pair gets what the traders pay beyond what they receive, less the rounding gain, which the dust
  collector gets. -/
  escrow : (∀ id, s.params.dustCollector ≠ .pairEscrow id) → ∀ d, escrowSlack s' p.id d = escrowSlack s p.id d +
    tradedSurplus p d (resultOrders out) - (if d = p.quote then resultDiff out else 0)

/-- Base coin bought and sold in a matching. -/
def bought (ys : List Order) : Int := total (fun y => match y.dir with | .buy => y.amount - y.openAmt | .sell => 0) ys
@[inherit_doc bought]
def sold (ys : List Order) : Int := total (fun y => match y.dir with | .buy => 0 | .sell => y.amount - y.openAmt) ys

/-- The order `y` of a pool traded as the given trades say: each is of a positive amount at a positive price, below the price of the
pool if it buys, not below it if it sells.  A buyer pays the quote value of each trade rounded up, a seller gets it rounded down. -/
structure PoolTrades (poolPrice : Int) (y : Order) (trades : List Trade) : Prop where
  each : ∀ f ∈ trades, 0 < f.amt ∧ 0 < f.price ∧ (y.dir = .buy → f.price < poolPrice) ∧ (y.dir = .sell → poolPrice ≤ f.price)
  amount : y.amount - y.openAmt = total (fun f => f.amt) trades
  paid : y.paid = total (fun f => cost y.dir f.price f.amt) trades
  received : y.received = total (fun f => gain y.dir f.price f.amt) trades
  within : 0 ≤ y.openAmt ∧ y.paid ≤ y.offer

end Verif.Spec

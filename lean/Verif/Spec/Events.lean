import Verif.Model.Events
import Verif.Spec.Trade
/-!
# Specification vocabulary: a client that only reads the events (C86, C87)

The client keeps, for one id, what the events have said about it.  It is strict: an event that does not fit what it knows (an id
placed twice, a match or a result of an order it has not heard of, two results, another owner, direction or coin) leaves it
`confused` for good.
-/
namespace Verif.Spec
open Verif Verif.Dex Verif.Amm

/-- What a client knows about one id. -/
inductive Told (α : Type) where
  | unknown
  | knows (v : α)
  | confused
  deriving DecidableEq, Repr

/-- The numbers of an `order_result` event. -/
structure KnownResult where
  openAmt : Int
  remaining : Int
  received : Int
  status : OStatus
  deriving DecidableEq, Repr

/-- An order as the events describe it: the terms at placement, the running amounts, the announced result. -/
structure KnownOrder where
  typ : OType
  orderer : Nat
  dir : Dir
  offer : Coin
  demand : Denom
  price : Int
  amount : Int
  batchId : Nat
  expireAt : Int
  openAmt : Int
  remaining : Int
  received : Int
  result : Option KnownResult
  deriving DecidableEq, Repr

/-- The client of order `i` of pair `p` reads one event. -/
def readOrder (p i : Nat) (k : Told KnownOrder) : Event → Told KnownOrder
  | .orderPlaced typ orderer p' dir offer demand price amount i' batchId expireAt _ =>
    if p' = p ∧ i' = i then
      match k with
      | .unknown => .knows ⟨typ, orderer, dir, offer, demand, price, amount, batchId, expireAt, amount, offer.amt, 0, none⟩
      | _ => .confused
    else k
  | .userMatched dir orderer p' i' matched paid received =>
    if p' = p ∧ i' = i then
      match k with
      | .knows v =>
        if dir = v.dir ∧ orderer = v.orderer ∧ paid.denom = v.offer.denom ∧ received.denom = v.demand then
          .knows { v with openAmt := v.openAmt - matched, remaining := v.remaining - paid.amt,
                          received := v.received + received.amt }
        else .confused
      | _ => .confused
    else k
  | .orderResult dir orderer p' i' amount openAmt offer remaining received status =>
    if p' = p ∧ i' = i then
      match k with
      | .knows v =>
        if v.result = none ∧ dir = v.dir ∧ orderer = v.orderer ∧ amount = v.amount ∧ offer = v.offer ∧
            remaining.denom = v.offer.denom ∧ received.denom = v.demand then
          .knows { v with result := some ⟨openAmt, remaining.amt, received.amt, status⟩ }
        else .confused
      | _ => .confused
    else k
  | _ => k

/-- What the client of order `i` of pair `p` knows after a log. -/
def toldOrder (p i : Nat) (log : List Event) : Told KnownOrder := log.foldl (readOrder p i) .unknown

/-- The order the module has stored, in the client's terms: a result has been announced iff the order is finished, and then with
the stored amounts. -/
def viewOf (o : OrderRec) : KnownOrder :=
  { typ := o.typ, orderer := o.orderer, dir := o.dir, offer := ⟨o.offerDenom, o.offer⟩, demand := o.demandDenom
    price := o.price, amount := o.amount, batchId := o.batchId, expireAt := o.expireAt
    openAmt := o.openAmt, remaining := o.remaining, received := o.received
    result := match o.status with
      | .notExecuted | .notMatched | .partiallyMatched => none
      | .completed | .canceled | .expired => some ⟨o.openAmt, o.remaining, o.received, o.status⟩ }

/-- A result has been announced, with the amounts that the matches announced add up to, and a final status. -/
def KnownOrder.Closed (v : KnownOrder) : Prop :=
  ∃ status, (status = .completed ∨ status = .canceled ∨ status = .expired) ∧
    v.result = some ⟨v.openAmt, v.remaining, v.received, status⟩

/-- The result of a deposit request, as announced. -/
structure DepositResult where
  accepted : Coins
  refunded : Coins
  minted : Coin
  status : ReqStatus
  deriving DecidableEq, Repr

/-- A deposit request as the events describe it. -/
structure KnownDeposit where
  depositor : Nat
  coins : Coins
  result : Option DepositResult
  deriving DecidableEq, Repr

/-- The client of deposit request `i` of pool `p` reads one event. -/
def readDeposit (p i : Nat) (k : Told KnownDeposit) : Event → Told KnownDeposit
  | .deposit depositor p' coins i' =>
    if p' = p ∧ i' = i then (match k with | .unknown => .knows ⟨depositor, coins, none⟩ | _ => .confused) else k
  | .depositResult i' depositor p' coins accepted refunded minted status =>
    if p' = p ∧ i' = i then
      match k with
      | .knows v => if v.result = none ∧ depositor = v.depositor ∧ coins = v.coins then
          .knows { v with result := some ⟨accepted, refunded, minted, status⟩ } else .confused
      | _ => .confused
    else k
  | _ => k

/-- What the client of deposit request `i` of pool `p` knows after a log. -/
def toldDeposit (p i : Nat) (log : List Event) : Told KnownDeposit := log.foldl (readDeposit p i) .unknown

/-- The deposit request the module has stored, in the client's terms.  Refunded is offered minus accepted. -/
def viewOfDeposit (r : DepReq) : KnownDeposit :=
  ⟨r.depositor, r.coins, match r.status with
    | .notExecuted => none
    | st => some ⟨r.accepted, r.coins.map (fun c => ⟨c.denom, c.amt - amountOf r.accepted c.denom⟩), ⟨.pool r.poolId, r.minted⟩, st⟩⟩

/-- The result of a withdraw request, as announced. -/
structure WithdrawResult where
  refunded : Coins
  withdrawn : Coins
  status : ReqStatus
  deriving DecidableEq, Repr

/-- A withdraw request as the events describe it. -/
structure KnownWithdraw where
  withdrawer : Nat
  coin : Coin
  result : Option WithdrawResult
  deriving DecidableEq, Repr

/-- The client of withdraw request `i` of pool `p` reads one event. -/
def readWithdraw (p i : Nat) (k : Told KnownWithdraw) : Event → Told KnownWithdraw
  | .withdraw withdrawer p' coin i' =>
    if p' = p ∧ i' = i then (match k with | .unknown => .knows ⟨withdrawer, coin, none⟩ | _ => .confused) else k
  | .withdrawResult i' withdrawer p' coin refunded withdrawn status =>
    if p' = p ∧ i' = i then
      match k with
      | .knows v => if v.result = none ∧ withdrawer = v.withdrawer ∧ coin = v.coin then
          .knows { v with result := some ⟨refunded, withdrawn, status⟩ } else .confused
      | _ => .confused
    else k
  | _ => k

/-- What the client of withdraw request `i` of pool `p` knows after a log. -/
def toldWithdraw (p i : Nat) (log : List Event) : Told KnownWithdraw := log.foldl (readWithdraw p i) .unknown

/-- The withdraw request the module has stored, in the client's terms: a failed one gave the pool coins back. -/
def viewOfWithdraw (r : WdReq) : KnownWithdraw :=
  ⟨r.withdrawer, r.coin, match r.status with
    | .notExecuted => none
    | .succeeded => some ⟨[], r.withdrawn, .succeeded⟩
    | .failed => some ⟨[r.coin], r.withdrawn, .failed⟩⟩

/-- The pairs announced by a log, in order: id, base and quote denom. -/
def toldPairs (log : List Event) : List (Nat × Denom × Denom) :=
  log.filterMap fun
    | .createPair _ base quote id => some (id, base, quote)
    | _ => none

/-- The pools announced by a log, in order: id, pair, creator, whether ranged. -/
def toldPools (log : List Event) : List (Nat × Nat × Nat × Bool) :=
  log.filterMap fun
    | .createPool ranged creator pairId _ id _ => some (id, pairId, creator, ranged)
    | _ => none

/-! ## Reading the log as an account statement (C87) -/

/-- What an event says account `a` got of denom `d`, less what it gave: an order and a request take the coins from their owner,
a match and a result pay out; a pool pays and receives in a match, receives what a deposit accepts and gives what is withdrawn;
coins of pending requests are with the global escrow. -/
def said (a : Addr) (d : Denom) : Event → Int
  | .orderPlaced _ orderer _ _ offer _ _ _ _ _ _ _ => if a = .user orderer then - amountOf [offer] d else 0
  | .userMatched _ orderer _ _ _ _ received => if a = .user orderer then amountOf [received] d else 0
  | .orderResult _ orderer _ _ _ _ _ remaining _ _ => if a = .user orderer then amountOf [remaining] d else 0
  | .poolMatched _ _ pool _ paid received => if a = .poolReserve pool then amountOf [received] d - amountOf [paid] d else 0
  | .deposit depositor _ coins _ =>
    (if a = .globalEscrow then amountOf coins d else 0) - (if a = .user depositor then amountOf coins d else 0)
  | .depositResult _ depositor pool coins accepted refunded minted _ =>
    (if a = .user depositor then amountOf refunded d + amountOf [minted] d else 0) +
      (if a = .poolReserve pool then amountOf accepted d else 0) - (if a = .globalEscrow then amountOf coins d else 0)
  | .withdraw withdrawer _ coin _ =>
    (if a = .globalEscrow then amountOf [coin] d else 0) - (if a = .user withdrawer then amountOf [coin] d else 0)
  | .withdrawResult _ withdrawer pool coin refunded withdrawn _ =>
    (if a = .user withdrawer then amountOf refunded d + amountOf withdrawn d else 0) -
      (if a = .poolReserve pool then amountOf withdrawn d else 0) - (if a = .globalEscrow then amountOf [coin] d else 0)
  | _ => 0

/-- What an event says of the supply of the pool coin of pool `id`: minted when the pool is created and when a deposit succeeds,
burnt when a withdrawal succeeds. -/
def saidSupply (id : Nat) : Event → Int
  | .createPool _ _ _ _ pool minted => if pool = id then minted else 0
  | .depositResult _ _ _ _ _ _ minted _ => amountOf [minted] (.pool id)
  | .withdrawResult _ _ pool coin _ _ status => if pool = id ∧ status = .succeeded then - coin.amt else 0
  | _ => 0

/-- The account is not one of those whose gain or loss the events of this step leave out: the creation fees and the coins put into a
new pool, transfers of the bank module, and the dust of a batch. -/
def ToldOf (a : Addr) (s : State) : Op → Prop
  | .createPair m => a ≠ .user m.creator ∧ a ≠ s.params.feeCollector
  | .createPool m => a ≠ .user m.creator ∧ a ≠ s.params.feeCollector ∧ a ≠ .poolReserve (s.lastPoolId + 1)
  | .createRangedPool m => a ≠ .user m.creator ∧ a ≠ s.params.feeCollector ∧ a ≠ .poolReserve (s.lastPoolId + 1)
  | .transfer src dst _ => a ≠ .user src ∧ a ≠ dst
  | .endBlock => a ≠ s.params.dustCollector
  | _ => True

/-- The account is not one of those whose gain or loss the events leave out, in any step of a history. -/
def ToldThrough (env : Env) (a : Addr) : List Op → State → Prop
  | [], _ => True
  | op :: ops, s => ToldOf a s op ∧ match step env op s with
    | none => True
    | some s' => ToldThrough env a ops s'

/-- What an order message asks for: kind, orderer, pair, direction, offered coin, demanded denom, amount, lifespan. -/
def orderAsked : Op → Option (OType × Nat × Nat × Dir × Coin × Denom × Int × Int)
  | .limitOrder m => some (.limit, m.orderer, m.pairId, m.dir, m.offer, m.demand, m.amt, m.lifespan)
  | .marketOrder m => some (.market, m.orderer, m.pairId, m.dir, m.offer, m.demand, m.amt, m.lifespan)
  | .mmOrder m => some (.mm, m.orderer, m.pairId, m.dir, m.offer, m.demand, m.amt, m.lifespan)
  | _ => none

/-- The event repeats the message that caused it, and belongs to that kind of step: results of requests and matches come with the end
of a block, results of orders with that or with a cancellation.  What an order message offers is what the order took and what was
refunded; the list of a cancellation of all orders has the ids of the owner's orders of an earlier batch that are not canceled, in the
pairs asked for. -/
def Repeats (op : Op) (s : State) : Event → Prop
  | .createPair creator base quote _ => op = .createPair ⟨creator, base, quote⟩
  | .createPool ranged creator pair coins _ _ =>
    (ranged = false ∧ op = .createPool ⟨creator, pair, coins⟩) ∨
      (ranged = true ∧ ∃ lo hi start, op = .createRangedPool ⟨creator, pair, coins, lo, hi, start⟩)
  | .deposit depositor pool coins _ => op = .deposit ⟨depositor, pool, coins⟩
  | .withdraw withdrawer pool coin _ => op = .withdraw ⟨withdrawer, pool, coin⟩
  | .orderPlaced typ orderer pair dir offer demand _ amount _ _ expireAt refunded =>
    ∃ asked lifespan, orderAsked op = some (typ, orderer, pair, dir, asked, demand, amount, lifespan) ∧ offer.denom = asked.denom ∧
      refunded.denom = asked.denom ∧ offer.amt + refunded.amt = asked.amt ∧ 0 ≤ offer.amt ∧ 0 ≤ refunded.amt ∧
      expireAt = s.time + lifespan
  | .cancelOrder orderer pair id => op = .cancelOrder ⟨orderer, pair, id⟩
  | .cancelAllOrders orderer pairs ids => op = .cancelAllOrders ⟨orderer, pairs⟩ ∧
    ∀ i, i ∈ ids ↔ ∃ o ∈ s.orders, o.id = i ∧ o.orderer = orderer ∧ (pairs = [] ∨ o.pairId ∈ pairs) ∧ o.status ≠ .canceled ∧
      ∃ p ∈ s.pairs, p.id = o.pairId ∧ o.batchId < p.batchId
  | .orderResult _ _ _ _ _ _ _ _ _ status =>
    (op = .endBlock ∧ status ≠ .canceled) ∨ (((∃ m, op = .cancelOrder m) ∨ ∃ m, op = .cancelAllOrders m) ∧ status = .canceled)
  | .userMatched .. => op = .endBlock
  | .poolMatched .. => op = .endBlock
  | .depositResult .. => op = .endBlock
  | .withdrawResult .. => op = .endBlock

/-- The amounts add up to one or more trades in direction `dir`, each of a positive amount at a positive price that is `ok`: a buyer
receives the base coin matched and pays its quote value rounded up, a seller pays the base coin matched and receives its quote value
rounded down. -/
def TradedAs (dir : Dir) (ok : Int → Prop) (matched paid received : Int) : Prop :=
  ∃ trades : List Trade, trades ≠ [] ∧ (∀ f ∈ trades, 0 < f.amt ∧ 0 < f.price ∧ ok f.price) ∧ matched = total (fun f => f.amt) trades ∧
    paid = total (fun f => cost dir f.price f.amt) trades ∧ received = total (fun f => gain dir f.price f.amt) trades

/-- A match that the event announces is one of an order stored before, in its direction, by trades at prices its owner accepts; or of
a stored pool of the pair. -/
def MatchTrue (s : State) : Event → Prop
  | .userMatched dir _ pair id matched paid received => ∃ o ∈ s.orders, o.pairId = pair ∧ o.id = id ∧ dir = o.dir ∧
    TradedAs dir (Acceptable o) matched paid.amt received.amt
  | .poolMatched dir pair id matched paid received => (∃ q ∈ s.pools, q.id = id ∧ q.pairId = pair) ∧
    TradedAs dir (fun _ => True) matched paid.amt received.amt
  | _ => True

/-- Any of the ten messages of the module. -/
def IsMessage : Op → Prop
  | .transfer .. | .setParams .. | .beginBlock .. | .endBlock => False
  | _ => True

end Verif.Spec

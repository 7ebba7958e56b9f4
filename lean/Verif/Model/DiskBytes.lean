import Verif.Model.KVStore
import Verif.Model.Records
/-!
# The bytes under the keys: records as the keeper marshals them

`Verif/Model/KVStore.lean` keeps typed values; here they become the bytes that `SetPair`, `SetOrder` and so on put into the store.
`txt` spells denoms and accounts as the strings kept in the records (bech32 for accounts).
-/
namespace Verif.Dex.Disk
open Verif Verif.Dex Verif.Dex.KV

/-- A coin in a record (cosmos-sdk types/coin.go). -/
def coin (txt : Enc) (c : Coin) : Pb.Coin := { denom := txt.denom c.denom, amount := c.amt }

/-- A time in nanoseconds since 1970 as seconds and nanoseconds (gogoproto/types/timestamp.go). -/
def stamp (t : Int) : Pb.Stamp := { seconds := t / 1000000000, nanos := t % 1000000000 }

/-- `Pair` (x/dex/types/pair.go:33-43, x/dex/types/dex.pb.go:222-230). -/
def pair (txt : Enc) (p : Pair) : Pb.Pair where
  id := p.id
  baseCoinDenom := txt.denom p.base
  quoteCoinDenom := txt.denom p.quote
  escrowAddress := txt.addr (.pairEscrow p.id)
  lastOrderId := p.lastOrderId
  lastPrice := p.lastPrice
  currentBatchId := p.batchId

/-- `Pool` (x/dex/types/pool.go:50-79, x/dex/types/dex.pb.go:309-321). -/
def pool (txt : Enc) (p : PoolRec) : Pb.Pool where
  typ := if p.range.isSome then 2 else 1
  id := p.id
  pairId := p.pairId
  creator := txt.addr (.user p.creator)
  reserveAddress := txt.addr (.poolReserve p.id)
  poolCoinDenom := txt.denom (.pool p.id)
  minPrice := p.range.map (·.1)
  maxPrice := p.range.map (·.2)
  lastDepositRequestId := p.lastDepositId
  lastWithdrawRequestId := p.lastWithdrawId
  disabled := p.disabled

/-- `RequestStatus` (x/dex/types/dex.pb.go:138-149). -/
def reqStatus : ReqStatus → Int
  | .notExecuted => 1
  | .succeeded => 2
  | .failed => 3

/-- `OrderType` (x/dex/types/dex.pb.go:70-82). -/
def orderType : OType → Int
  | .limit => 1
  | .market => 2
  | .mm => 3

/-- `OrderDirection` (x/dex/types/dex.pb.go:106-115). -/
def direction : Amm.Dir → Int
  | .buy => 1
  | .sell => 2

/-- `OrderStatus` (x/dex/types/dex.pb.go:174-191). -/
def orderStatus : OStatus → Int
  | .notExecuted => 1
  | .notMatched => 2
  | .partiallyMatched => 3
  | .completed => 4
  | .canceled => 5
  | .expired => 6

/-- `DepositRequest` (x/dex/types/request.go:13-24, x/dex/types/dex.pb.go:420-436). -/
def deposit (txt : Enc) (r : DepReq) : Pb.DepositRequest where
  id := r.id
  poolId := r.poolId
  msgHeight := r.msgHeight
  depositor := txt.addr (.user r.depositor)
  depositCoins := r.coins.map (coin txt)
  acceptedCoins := r.accepted.map (coin txt)
  mintedPoolCoin := { denom := txt.denom (.pool r.poolId), amount := r.minted }
  status := reqStatus r.status

/-- `WithdrawRequest` (x/dex/types/request.go:81-91, x/dex/types/dex.pb.go:527-541). -/
def withdraw (txt : Enc) (r : WdReq) : Pb.WithdrawRequest where
  id := r.id
  poolId := r.poolId
  msgHeight := r.msgHeight
  withdrawer := txt.addr (.user r.withdrawer)
  poolCoin := coin txt r.coin
  withdrawnCoins := r.withdrawn.map (coin txt)
  status := reqStatus r.status

/-- `Order` (x/dex/types/request.go:195-211, x/dex/types/dex.pb.go:626-655). -/
def order (txt : Enc) (o : OrderRec) : Pb.Order where
  typ := orderType o.typ
  id := o.id
  pairId := o.pairId
  msgHeight := o.msgHeight
  orderer := txt.addr (.user o.orderer)
  direction := direction o.dir
  offerCoin := { denom := txt.denom o.offerDenom, amount := o.offer }
  remainingOfferCoin := { denom := txt.denom o.offerDenom, amount := o.remaining }
  receivedCoin := { denom := txt.denom o.demandDenom, amount := o.received }
  price := o.price
  amount := o.amount
  openAmount := o.openAmt
  batchId := o.batchId
  expireAt := stamp o.expireAt
  status := orderStatus o.status

/-- The bytes of a value: `MustMarshal` of the record or of `UInt64Value`, no bytes in an index, eight bytes for a counter
(x/dex/keeper/store.go:28-30, :65-67, :84-85, :588-589, ...). -/
def value (txt : Enc) : Val → Option Keys.Bytes
  | .id n => Pb.marshal Pb.uInt64ValueFields { value := n.toNat }
  | .empty => some []
  | .count n => some (Keys.be64 n)
  | .pair p => Pb.marshal Pb.pairFields (pair txt p)
  | .pool p => Pb.marshal Pb.poolFields (pool txt p)
  | .deposit r => Pb.marshal Pb.depositRequestFields (deposit txt r)
  | .withdraw r => Pb.marshal Pb.withdrawRequestFields (withdraw txt r)
  | .order o => Pb.marshal Pb.orderFields (order txt o)

/-- The store of the module as bytes. -/
def bytes (txt : Enc) (kv : Store) : Option (List (Keys.Bytes × Keys.Bytes)) := kv.mapM fun e => (value txt e.2).map fun b => (e.1, b)

end Verif.Dex.Disk

import Verif.Model.Bank
import Verif.Model.Store
import Verif.Model.Msgs
/-!
# Keeper: state of the dex module and its message handlers (x/dex/keeper: pair.go, pool.go, swap.go)

* A handler returns `none` for an error and for a panic: in both cases the transaction is reverted, so the state does not
  change.
* Secondary indexes are lookups in the primary lists (see `Verif/Model/Store.lean`); events and gas are not modelled.
* "`x, _ := Get…`" with the object missing leaves a zero value in Go, whose use panics; in the model it is `none`.
-/
namespace Verif.Dex
open Verif Verif.Amm

/-- Behaviour of the numeric library that the model leaves open: the square root `utils.DecApproxSqrt`
(types/utils.go:137-143) and whether the computation inside `SafeMath` (types/utils.go:223-234) overflows in `amm.Deposit`
(x/dex/amm/pool.go:477-509) and `amm.Withdraw` (x/dex/amm/pool.go:514-532). -/
structure Env where
  sqrt : Int → Int
  depositOverflow : Int → Int → Int → Int → Int → Bool
  withdrawOverflow : Int → Int → Int → Int → Int → Bool

/-- `Params` (x/dex/types/params.go:71-126) without the gas parameters. -/
structure Params where
  batchSize : Nat
  tickPrec : Nat
  feeCollector : Addr
  dustCollector : Addr
  minInitialPoolCoinSupply : Int
  pairCreationFee : Coins
  poolCreationFee : Coins
  minInitialDepositAmount : Int
  maxPriceLimitRatio : Int
  maxNumMMOrders : Nat
  maxOrderLifespan : Int
  withdrawFeeRate : Int
  maxNumActivePools : Nat

/-- `Params.Validate` (x/dex/types/params.go:128-157, validators :159-356), also run parameter by parameter when the
parameter store is written (`SetParamSet`, x/dex/keeper/params.go:20-22).  The tick precision and the maximum number of
active pools are accepted whatever they are. -/
def Params.validate (p : Params) : Bool :=
  decide (0 < p.batchSize) && decide (0 < p.minInitialPoolCoinSupply) && coinsValid p.pairCreationFee &&
  coinsValid p.poolCreationFee && decide (0 ≤ p.minInitialDepositAmount) && decide (0 ≤ p.maxPriceLimitRatio) &&
  decide (0 < p.maxNumMMOrders) && decide (0 ≤ p.maxOrderLifespan) && decide (0 ≤ p.withdrawFeeRate)

/-- `Pair` (x/dex/types/pair.go:33-43); the escrow address is `Addr.pairEscrow id`. -/
structure Pair where
  id : Nat
  base : Denom
  quote : Denom
  lastOrderId : Nat
  lastPrice : Option Int
  batchId : Nat
  deriving DecidableEq, Repr

/-- `Pool` (x/dex/types/pool.go:50-79); the reserve address is `Addr.poolReserve id`, the pool coin `Denom.pool id`, and
`range` is (min, max price) for a ranged pool. -/
structure PoolRec where
  id : Nat
  pairId : Nat
  creator : Nat
  range : Option (Int × Int)
  lastDepositId : Nat
  lastWithdrawId : Nat
  disabled : Bool
  deriving DecidableEq, Repr

/-- `RequestStatus` (x/dex/types/request.go:288-306). -/
inductive ReqStatus where
  | notExecuted
  | succeeded
  | failed
  deriving DecidableEq, Repr

/-- `DepositRequest` (x/dex/types/request.go:13-24). -/
structure DepReq where
  id : Nat
  poolId : Nat
  msgHeight : Nat
  depositor : Nat
  coins : Coins
  accepted : Coins
  minted : Int
  status : ReqStatus
  deriving DecidableEq, Repr

/-- `WithdrawRequest` (x/dex/types/request.go:81-91). -/
structure WdReq where
  id : Nat
  poolId : Nat
  msgHeight : Nat
  withdrawer : Nat
  coin : Coin
  withdrawn : Coins
  status : ReqStatus
  deriving DecidableEq, Repr

/-- `OrderType` (x/dex/types/liquidity.pb.go; used in swap.go:46-67). -/
inductive OType where
  | limit
  | market
  | mm
  deriving DecidableEq, Repr

/-- `OrderStatus` (x/dex/types/request.go:308-363). -/
inductive OStatus where
  | notExecuted
  | notMatched
  | partiallyMatched
  | completed
  | canceled
  | expired
  deriving DecidableEq, Repr

/-- `OrderStatus.IsMatchable` and `CanBeExpired` (x/dex/types/request.go:323-335). -/
def OStatus.isMatchable : OStatus → Bool
  | .notExecuted | .notMatched | .partiallyMatched => true
  | _ => false

/-- `OrderStatus.IsCanceledOrExpired` (x/dex/types/request.go:350-357). -/
def OStatus.isCanceledOrExpired : OStatus → Bool
  | .canceled | .expired => true
  | _ => false

/-- `OrderStatus.ShouldBeDeleted` (x/dex/types/request.go:361-363). -/
def OStatus.shouldBeDeleted (s : OStatus) : Bool := s == .completed || s.isCanceledOrExpired

/-- `RequestStatus.ShouldBeDeleted` (x/dex/types/request.go:299-306). -/
def ReqStatus.shouldBeDeleted : ReqStatus → Bool
  | .succeeded | .failed => true
  | .notExecuted => false

/-- `Order` (x/dex/types/request.go:195-211). `remaining` and `received` are amounts of `offerDenom` and `demandDenom`. -/
structure OrderRec where
  typ : OType
  id : Nat
  pairId : Nat
  msgHeight : Nat
  orderer : Nat
  dir : Dir
  offerDenom : Denom
  demandDenom : Denom
  offer : Int
  remaining : Int
  received : Int
  price : Int
  amount : Int
  openAmt : Int
  batchId : Nat
  expireAt : Int
  status : OStatus
  deriving DecidableEq, Repr

/-- `Order.ExpiredAt` (x/dex/types/request.go:276-278). -/
def OrderRec.expiredAt (o : OrderRec) (t : Int) : Bool := !(o.expireAt > t)

/-- Store key of a pair (x/dex/types/keys.go:47-49). -/
def Pair.key (p : Pair) : Key := (p.id, 0)
/-- Store key of a pool (x/dex/types/keys.go:72-74). -/
def PoolRec.key (p : PoolRec) : Key := (p.id, 0)
/-- Store key of a deposit request (x/dex/types/keys.go:92-94). -/
def DepReq.key (r : DepReq) : Key := (r.poolId, r.id)
/-- Store key of a withdraw request (x/dex/types/keys.go:110-112). -/
def WdReq.key (r : WdReq) : Key := (r.poolId, r.id)
/-- Store key of an order (x/dex/types/keys.go:128-130). -/
def OrderRec.key (o : OrderRec) : Key := (o.pairId, o.id)

/-- The state: bank, parameters, the stores of x/dex/keeper/store.go, and the block context.  `shortfall` is a ghost that
no function reads: per pair, the base coin handed to buyers beyond what sellers delivered (see C22, C36). -/
structure State where
  bank : Bank
  params : Params
  lastPairId : Nat
  lastPoolId : Nat
  pairs : List Pair
  pools : List PoolRec
  deposits : List DepReq
  withdraws : List WdReq
  orders : List OrderRec
  numMM : Nat → Nat → Option Nat
  height : Nat
  time : Int
  shortfall : Nat → Int

/-- `GetPair` (x/dex/keeper/store.go:40-48). -/
def State.getPair (s : State) (id : Nat) : Option Pair := lookup Pair.key (id, 0) s.pairs
/-- `SetPair` (x/dex/keeper/store.go:64-68). -/
def State.setPair (s : State) (p : Pair) : State := { s with pairs := upsert Pair.key p s.pairs }
/-- `GetPairByDenoms` (x/dex/keeper/store.go:51-61). -/
def State.getPairByDenoms (s : State) (base quote : Denom) : Option Pair :=
  s.pairs.find? (fun p => p.base == base && p.quote == quote)
/-- `GetPool` (x/dex/keeper/store.go:155-163). -/
def State.getPool (s : State) (id : Nat) : Option PoolRec := lookup PoolRec.key (id, 0) s.pools
/-- `SetPool` (x/dex/keeper/store.go:179-183). -/
def State.setPool (s : State) (p : PoolRec) : State := { s with pools := upsert PoolRec.key p s.pools }
/-- `IteratePoolsByPair` (x/dex/keeper/store.go:228-245): the pools of a pair in id order. -/
def State.poolsOf (s : State) (pairId : Nat) : List PoolRec := s.pools.filter (fun p => p.pairId == pairId)
/-- `SetDepositRequest` (x/dex/keeper/store.go:283-287). -/
def State.setDeposit (s : State) (r : DepReq) : State := { s with deposits := upsert DepReq.key r s.deposits }
/-- `SetWithdrawRequest` (x/dex/keeper/store.go:376-380). -/
def State.setWithdraw (s : State) (r : WdReq) : State := { s with withdraws := upsert WdReq.key r s.withdraws }
/-- `GetOrder` (x/dex/keeper/store.go:458-466). -/
def State.getOrder (s : State) (pairId id : Nat) : Option OrderRec := lookup OrderRec.key (pairId, id) s.orders
/-- `SetOrder` (x/dex/keeper/store.go:469-473). -/
def State.setOrder (s : State) (o : OrderRec) : State := { s with orders := upsert OrderRec.key o s.orders }
/-- `IterateOrdersByPair` (x/dex/keeper/store.go:501-516). -/
def State.ordersOf (s : State) (pairId : Nat) : List OrderRec := s.orders.filter (fun o => o.pairId == pairId)
/-- `IterateOrdersByOrderer` (x/dex/keeper/store.go:520-536): index order is (pair id, order id). -/
def State.ordersBy (s : State) (orderer : Nat) : List OrderRec := s.orders.filter (fun o => o.orderer == orderer)
/-- `GetNumMMOrders` (x/dex/keeper/store.go:578-585). -/
def State.getNumMM (s : State) (orderer pairId : Nat) : Nat := (s.numMM orderer pairId).getD 0
/-- `SetNumMMOrders` / `DeleteNumMMOrders` (x/dex/keeper/store.go:587-595). -/
def State.setNumMM (s : State) (orderer pairId : Nat) (n : Option Nat) : State :=
  { s with numMM := fun a p => if a = orderer ∧ p = pairId then n else s.numMM a p }

/-- An iteration of the store with a callback.  The callbacks only change the object they are called with (and objects of
other kinds), so the objects visited are those present at the start (x/dex/keeper/store.go:96-111, :482-516). -/
def forEach {α σ : Type} (f : α → σ → Option σ) : List α → σ → Option σ
  | [], s => some s
  | x :: xs, s => (f x s).bind (forEach f xs)

/-! ## Pairs -/

/-- `NewPair` (x/dex/types/pair.go:33-43). -/
def newPair (id : Nat) (base quote : Denom) : Pair := { id, base, quote, lastOrderId := 0, lastPrice := none, batchId := 1 }

/-- `CreatePair` (x/dex/keeper/pair.go:28-68, with getNextPairIdWithUpdate :13-17). -/
def createPair (m : MsgCreatePair) (s : State) : Option State :=
  match s.getPairByDenoms m.base m.quote with
  | some _ => none
  | none =>
    match s.bank.send (.user m.creator) s.params.feeCollector s.params.pairCreationFee with
    | none => none
    | some b =>
      let id := s.lastPairId + 1
      some ({ s with bank := b, lastPairId := id }.setPair (newPair id m.base m.quote))

/-! ## Pools -/

/-- `GetPoolBalances` / `getPoolBalances` (x/dex/keeper/pool.go:42-59): quote and base coin of the reserve account. -/
def State.poolRx (s : State) (pool : PoolRec) (pair : Pair) : Int := s.bank.bal (.poolReserve pool.id) pair.quote
/-- `getPoolBalances` (x/dex/keeper/pool.go:53-59), base coin. -/
def State.poolRy (s : State) (pool : PoolRec) (pair : Pair) : Int := s.bank.bal (.poolReserve pool.id) pair.base
/-- `GetPoolCoinSupply` (x/dex/keeper/pool.go:62-64). -/
def State.poolSupply (s : State) (pool : PoolRec) : Int := s.bank.supply (.pool pool.id)

/-- `AMMPool` (x/dex/types/pool.go:118-127). -/
def ammPool (env : Env) (pool : PoolRec) (rx ry ps : Int) : Option Pool :=
  match pool.range with
  | none => some (newBasicPool rx ry ps)
  | some (lo, hi) => newRangedPool env.sqrt rx ry ps lo hi

/-- `MarkPoolAsDisabled` (x/dex/keeper/pool.go:67-70). -/
def State.markDisabled (s : State) (pool : PoolRec) : State := s.setPool { pool with disabled := true }

/-- Deposit coins belong to the pair (x/dex/keeper/pool.go:80-83, :197-201, :300-304). -/
def coinsInPair (pair : Pair) (cs : Coins) : Bool := cs.all (fun c => c.denom == pair.base || c.denom == pair.quote)

/-- Number of active pools of a pair (x/dex/keeper/pool.go:94-104, :203-209). -/
def State.numActivePools (s : State) (pairId : Nat) : Nat := ((s.poolsOf pairId).filter (fun p => !p.disabled)).length

/-- `ValidateMsgCreatePool` (x/dex/keeper/pool.go:73-113); `some pair` if valid. -/
def validateCreatePool (m : MsgCreatePool) (s : State) : Option Pair :=
  match s.getPair m.pairId with
  | none => none
  | some pair =>
    if coinsInPair pair m.coins = false then none
    else if m.coins.any (fun c => c.amt < s.params.minInitialDepositAmount) then none
    else if (s.poolsOf pair.id).any (fun p => p.range.isNone && !p.disabled) then none
    else if s.numActivePools pair.id ≥ s.params.maxNumActivePools then none
    else some pair

/-- `NewBasicPool` / `NewRangedPool` (x/dex/types/pool.go:50-79). -/
def newPool (id pairId creator : Nat) (range : Option (Int × Int)) : PoolRec :=
  { id, pairId, creator, range, lastDepositId := 0, lastWithdrawId := 0, disabled := false }

/-- The bank part common to `CreatePool` and `CreateRangedPool` (x/dex/keeper/pool.go:137-157, :245-268): deposit, fee,
minting and delivery of the pool coin. -/
def createPoolBank (s : State) (creator poolId : Nat) (coins : Coins) (supply : Int) : Option Bank :=
  (s.bank.send (.user creator) (.poolReserve poolId) coins).bind fun b1 =>
  (b1.send (.user creator) s.params.feeCollector s.params.poolCreationFee).bind fun b2 =>
  (b2.mint ⟨.pool poolId, supply⟩).bind fun b3 =>
  b3.send .dexModule (.user creator) [⟨.pool poolId, supply⟩]

/-- `CreatePool` (x/dex/keeper/pool.go:116-172). -/
def createPool (m : MsgCreatePool) (s : State) : Option State :=
  match validateCreatePool m s with
  | none => none
  | some pair =>
    match createBasicPool (amountOf m.coins pair.quote) (amountOf m.coins pair.base) with
    | none => none
    | some ap =>
      let id := s.lastPoolId + 1
      let s1 := { s with lastPoolId := id }.setPool (newPool id pair.id m.creator none)
      match createPoolBank s1 m.creator id m.coins (max ap.ps s.params.minInitialPoolCoinSupply) with
      | none => none
      | some b => some { s1 with bank := b }

/-- `ValidateMsgCreateRangedPool` (x/dex/keeper/pool.go:175-215); `some pair` if valid. -/
def validateCreateRangedPool (m : MsgCreateRangedPool) (s : State) : Option Pair :=
  if priceToDownTick? m.minPrice s.params.tickPrec ≠ some m.minPrice then none
  else if priceToDownTick? m.maxPrice s.params.tickPrec ≠ some m.maxPrice then none
  else if priceToDownTick? m.initialPrice s.params.tickPrec ≠ some m.initialPrice then none
  else match lowestTick? s.params.tickPrec with
    | none => none
    | some lo =>
      if m.minPrice < lo then none
      else match s.getPair m.pairId with
        | none => none
        | some pair =>
          if coinsInPair pair m.coins = false then none
          else if s.numActivePools pair.id ≥ s.params.maxNumActivePools then none
          else some pair

/-- `CreateRangedPool` (x/dex/keeper/pool.go:218-283). -/
def createRangedPoolMsg (env : Env) (m : MsgCreateRangedPool) (s : State) : Option State :=
  match validateCreateRangedPool m s with
  | none => none
  | some pair =>
    match createRangedPool env.sqrt (amountOf m.coins pair.quote) (amountOf m.coins pair.base)
        m.minPrice m.maxPrice m.initialPrice with
    | .err => none
    | .panic => none
    | .ok ap =>
      if ap.rx < s.params.minInitialDepositAmount ∧ ap.ry < s.params.minInitialDepositAmount then none
      else
        let id := s.lastPoolId + 1
        let s1 := { s with lastPoolId := id }.setPool (newPool id pair.id m.creator (some (m.minPrice, m.maxPrice)))
        match createPoolBank s1 m.creator id [⟨pair.quote, ap.rx⟩, ⟨pair.base, ap.ry⟩]
            (max ap.ps s.params.minInitialPoolCoinSupply) with
        | none => none
        | some b => some { s1 with bank := b }

/-- `Deposit` (x/dex/keeper/pool.go:318-346) with `ValidateMsgDeposit` (:286-315), getNextDepositRequestIdWithUpdate (:25-30)
and `NewDepositRequest` (x/dex/types/request.go:13-24). -/
def depositMsg (m : MsgDeposit) (s : State) : Option State :=
  match s.getPool m.poolId with
  | none => none
  | some pool =>
    if pool.disabled then none
    else if pool.range.isNone ∧ m.coins.length ≠ 2 then none
    else match s.getPair pool.pairId with
      | none => none
      | some pair =>
        if coinsInPair pair m.coins = false then none
        else if s.poolRx pool pair + amountOf m.coins pair.quote > maxCoinAmount then none
        else if s.poolRy pool pair + amountOf m.coins pair.base > maxCoinAmount then none
        else match s.bank.send (.user m.depositor) .globalEscrow m.coins with
          | none => none
          | some b =>
            let id := pool.lastDepositId + 1
            let req : DepReq := ⟨id, m.poolId, s.height, m.depositor, m.coins, [], 0, .notExecuted⟩
            some (({ s with bank := b }.setPool { pool with lastDepositId := id }).setDeposit req)

/-- `Withdraw` (x/dex/keeper/pool.go:366-394) with `ValidateMsgWithdraw` (:349-363), getNextWithdrawRequestIdWithUpdate
(:34-39) and `NewWithdrawRequest` (x/dex/types/request.go:81-91). -/
def withdrawMsg (m : MsgWithdraw) (s : State) : Option State :=
  match s.getPool m.poolId with
  | none => none
  | some pool =>
    if pool.disabled then none
    else if m.coin.denom ≠ .pool pool.id then none
    else match s.bank.send (.user m.withdrawer) .globalEscrow [m.coin] with
      | none => none
      | some b =>
        let id := pool.lastWithdrawId + 1
        let req : WdReq := ⟨id, m.poolId, s.height, m.withdrawer, m.coin, [], .notExecuted⟩
        some (({ s with bank := b }.setPool { pool with lastWithdrawId := id }).setWithdraw req)

/-! ## Orders -/

/-- `types.PriceLimits` (x/dex/types/util.go:100-104). -/
def priceLimits (lastPrice ratio : Int) (prec : Nat) : Option (Int × Int) :=
  match priceToUpTick? (Dec.mul lastPrice (Dec.one - ratio)) prec,
    priceToDownTick? (Dec.mul lastPrice (Dec.one + ratio)) prec with
  | some lo, some hi => some (lo, hi)
  | _, _ => none

/-- `Keeper.PriceLimits` (x/dex/keeper/swap.go:18-20). -/
def Params.priceLimits (p : Params) (lastPrice : Int) : Option (Int × Int) :=
  Dex.priceLimits lastPrice p.maxPriceLimitRatio p.tickPrec

/-- `IsTooSmallOrderAmount` (x/dex/types/util.go:94-96). -/
def isTooSmallOrderAmount (amt price : Int) : Bool :=
  amt < minCoinAmount || Dec.mulInt price amt < Dec.ofInt minCoinAmount

/-- The price check of `placeOrder` (x/dex/keeper/swap.go:45-67); a panic rejects too. -/
def priceAllowed (p : Params) (pair : Pair) (typ : OType) (price : Int) : Bool :=
  match typ with
  | .market => pair.lastPrice.isSome
  | _ =>
    match (match pair.lastPrice with
      | some last => p.priceLimits last
      | none => (lowestTick? p.tickPrec).map (fun lo => (lo, highestTick p.tickPrec))) with
    | none => false
    | some (lo, hi) => !(price > hi) && !(price < lo)

/-- The tick price of an order (x/dex/keeper/swap.go:80-88, :100-108). -/
def orderPrice (p : Params) (pair : Pair) (typ : OType) (dir : Dir) (price : Int) : Option Int :=
  match dir, typ with
  | .buy, .market => pair.lastPrice.bind fun last => priceToDownTick? (Dec.mul last (Dec.one + p.maxPriceLimitRatio)) p.tickPrec
  | .buy, _ => priceToDownTick? price p.tickPrec
  | .sell, .market => pair.lastPrice.bind fun last => priceToUpTick? (Dec.mul last (Dec.one - p.maxPriceLimitRatio)) p.tickPrec
  | .sell, _ => priceToUpTick? price p.tickPrec

/-- Denom offered by an order of a pair (x/dex/keeper/swap.go:75, :95). -/
def Pair.offerDenom (pair : Pair) : Dir → Denom
  | .buy => pair.quote
  | .sell => pair.base

/-- Denom demanded by an order of a pair (x/dex/keeper/swap.go:75, :95). -/
def Pair.demandDenom (pair : Pair) : Dir → Denom
  | .buy => pair.base
  | .sell => pair.quote

/-- `placeOrder` (x/dex/keeper/swap.go:23-161) with getNextOrderIdWithUpdate (x/dex/keeper/pair.go:20-25) and `NewOrder`
(x/dex/types/request.go:181-212).  `price` is not used for market orders. -/
def placeOrder (typ : OType) (orderer pairId : Nat) (dir : Dir) (offer : Coin) (demand : Denom) (price amount lifespan : Int)
    (s : State) : Option State :=
  if s.bank.bal (.user orderer) offer.denom < offer.amt then none
  else if lifespan > s.params.maxOrderLifespan then none
  else match s.getPair pairId with
    | none => none
    | some pair =>
      if priceAllowed s.params pair typ price = false then none
      else if offer.denom ≠ pair.offerDenom dir ∨ demand ≠ pair.demandDenom dir then none
      else match orderPrice s.params pair typ dir price with
        | none => none
        | some rprice =>
          let roffer := offerCoinAmount dir rprice amount
          if offer.amt < roffer then none
          else if isTooSmallOrderAmount amount rprice then none
          else match s.bank.send (.user orderer) (.pairEscrow pair.id) [⟨offer.denom, roffer⟩] with
            | none => none
            | some b =>
              let id := pair.lastOrderId + 1
              let o : OrderRec :=
                { typ, id, pairId := pair.id, msgHeight := s.height, orderer
                  dir := if offer.denom = pair.base then .sell else .buy
                  offerDenom := offer.denom
                  demandDenom := if offer.denom = pair.base then pair.quote else pair.base
                  offer := roffer, remaining := roffer, received := 0, price := rprice, amount, openAmt := amount
                  batchId := pair.batchId, expireAt := s.time + lifespan, status := .notExecuted }
              some (({ s with bank := b }.setPair { pair with lastOrderId := id }).setOrder o)

/-- `LimitOrder` (x/dex/keeper/swap.go:164-168). -/
def limitOrder (m : MsgLimitOrder) (s : State) : Option State :=
  placeOrder .limit m.orderer m.pairId m.dir m.offer m.demand m.price m.amt m.lifespan s

/-- `MarketOrder` (x/dex/keeper/swap.go:171-175). -/
def marketOrder (m : MsgMarketOrder) (s : State) : Option State :=
  placeOrder .market m.orderer m.pairId m.dir m.offer m.demand 0 m.amt m.lifespan s

/-- `MMOrder` (x/dex/keeper/swap.go:178-194). -/
def mmOrder (m : MsgLimitOrder) (s : State) : Option State :=
  let n := s.getNumMM m.orderer m.pairId
  if n ≥ s.params.maxNumMMOrders then none
  else (placeOrder .mm m.orderer m.pairId m.dir m.offer m.demand m.price m.amt m.lifespan s).map
    (fun s' => s'.setNumMM m.orderer m.pairId (some (n + 1)))

/-- `FinishOrder` (x/dex/keeper/swap.go:500-541). -/
def finishOrder (o : OrderRec) (status : OStatus) (s : State) : Option State :=
  if o.status.shouldBeDeleted then some s
  else
    match (if 0 < o.remaining then
        (s.getPair o.pairId).bind fun pair => s.bank.send (.pairEscrow pair.id) (.user o.orderer) [⟨o.offerDenom, o.remaining⟩]
      else some s.bank) with
    | none => none
    | some b =>
      let s1 := { s with bank := b }.setOrder { o with status }
      if o.typ = .mm then
        let n := s1.getNumMM o.orderer o.pairId
        some (s1.setNumMM o.orderer o.pairId (if n ≤ 1 then none else some (n - 1)))
      else some s1

/-- `CancelOrder` (x/dex/keeper/swap.go:218-238) with `ValidateMsgCancelOrder` (:197-215). -/
def cancelOrder (m : MsgCancelOrder) (s : State) : Option State :=
  match s.getOrder m.pairId m.orderId with
  | none => none
  | some o =>
    if m.orderer ≠ o.orderer then none
    else if o.status = .canceled then none
    else match s.getPair m.pairId with
      | none => none
      | some pair => if o.batchId = pair.batchId then none else finishOrder o .canceled s

/-- Callback of `CancelAllOrders` (x/dex/keeper/swap.go:256-272).  The pair cache of the code holds the stored pair, which
does not change during the iteration. -/
def cancelAllStep (pairIds : List Nat) (o : OrderRec) (s : State) : Option State :=
  if pairIds.length = 0 ∨ o.pairId ∈ pairIds then
    match s.getPair o.pairId with
    | none => none
    | some pair =>
      if o.status ≠ .canceled ∧ o.batchId < pair.batchId then finishOrder o .canceled s else some s
  else some s

/-- `CancelAllOrders` (x/dex/keeper/swap.go:241-286). -/
def cancelAllOrders (m : MsgCancelAllOrders) (s : State) : Option State :=
  if m.pairIds.any (fun id => (s.getPair id).isNone) then none
  else forEach (cancelAllStep m.pairIds) (s.ordersBy m.orderer) s

end Verif.Dex

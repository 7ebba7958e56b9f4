import Verif.Model.Admin
import Verif.Model.Batch
/-!
# Genesis: x/dex/types/genesis.go, x/dex/keeper/genesis.go, x/dex/module/genesis.go

Addresses and denoms are valid by construction, statuses and directions too, so the checks of them are not modelled.  The
pool coin denom of a deposit request is that of its pool by construction.
-/
namespace Verif.Dex
open Verif Verif.Amm

/-- `NumMMOrdersRecord` (x/dex/types/genesis.pb.go). -/
structure NumMMRecord where
  orderer : Nat
  pairId : Nat
  num : Nat
  deriving DecidableEq, Repr

/-- `GenesisState` (x/dex/types/genesis.pb.go; fields as in x/dex/types/genesis.go:9-21). -/
structure GenesisState where
  params : Params
  lastPairId : Nat
  lastPoolId : Nat
  pairs : List Pair
  pools : List PoolRec
  deposits : List DepReq
  withdraws : List WdReq
  orders : List OrderRec
  numMM : List NumMMRecord

/-- The zero `time.Time` (year 1) in nanoseconds since the Unix epoch, used by `IsZero` (x/dex/types/request.go:266). -/
def zeroTime : Int := -62135596800000000000

/-- `sdk.NewCoins` drops zero amounts (x/dex/keeper/pool.go:434, :512); the model of the requests keeps them. -/
def nonzeroCoins (cs : Coins) : Coins := cs.filter (fun c => c.amt != 0)

/-- `Pair.Validate` (x/dex/types/pair.go:46-68). -/
def Pair.valid (p : Pair) : Bool :=
  p.id != 0 && (match p.lastPrice with | none => true | some lp => decide (0 < lp)) && p.batchId != 0

/-- `Pool.Validate` (x/dex/types/pool.go:101-115). -/
def PoolRec.valid (p : PoolRec) : Bool := p.id != 0 && p.pairId != 0

/-- `DepositRequest.Validate` (x/dex/types/request.go:35-70). -/
def DepReq.valid (r : DepReq) : Bool :=
  r.id != 0 && r.poolId != 0 && r.msgHeight != 0 && coinsValid r.coins && decide (r.coins.length ≠ 0) &&
  decide (r.coins.length ≤ 2) && coinsValid (nonzeroCoins r.accepted) && decide ((nonzeroCoins r.accepted).length ≤ 2) &&
  (nonzeroCoins r.accepted).all (fun c => amountOf r.coins c.denom != 0) && decide (0 ≤ r.minted)

/-- `WithdrawRequest.Validate` (x/dex/types/request.go:102-131). -/
def WdReq.valid (r : WdReq) : Bool :=
  r.id != 0 && r.poolId != 0 && r.msgHeight != 0 && decide (0 ≤ r.coin.amt) && r.coin.amt != 0 &&
  coinsValid (nonzeroCoins r.withdrawn) && decide ((nonzeroCoins r.withdrawn).length ≤ 2)

/-- `Order.Validate` (x/dex/types/request.go:223-273). -/
def OrderRec.valid (o : OrderRec) : Bool :=
  o.id != 0 && o.pairId != 0 && o.msgHeight != 0 && decide (0 ≤ o.offer) && o.offer != 0 && decide (0 ≤ o.remaining) &&
  decide (0 ≤ o.received) && decide (0 < o.price) && decide (0 < o.amount) && decide (0 ≤ o.openAmt) && o.batchId != 0 &&
  o.expireAt != zeroTime

/-- Checks of one deposit request against the pools and pairs (x/dex/types/genesis.go:58-80). -/
def GenesisState.depositOk (g : GenesisState) (r : DepReq) : Bool :=
  r.valid &&
  match lookup PoolRec.key (r.poolId, 0) g.pools with
  | none => false
  | some pool =>
    match lookup Pair.key (pool.pairId, 0) g.pairs with
    | none => false
    | some pair => amountOf r.coins pair.base != 0 && amountOf r.coins pair.quote != 0

/-- Checks of one withdraw request against the pools (x/dex/types/genesis.go:84-101). -/
def GenesisState.withdrawOk (g : GenesisState) (r : WdReq) : Bool :=
  r.valid &&
  match lookup PoolRec.key (r.poolId, 0) g.pools with
  | none => false
  | some pool => decide (r.coin.denom = .pool pool.id)

/-- Checks of one order against its pair (x/dex/types/genesis.go:104-133). -/
def GenesisState.orderOk (g : GenesisState) (o : OrderRec) : Bool :=
  o.valid &&
  match lookup Pair.key (o.pairId, 0) g.pairs with
  | none => false
  | some pair =>
    decide (o.batchId ≤ pair.batchId) && decide (o.offerDenom = pair.offerDenom o.dir) &&
    decide (o.demandDenom = pair.demandDenom o.dir)

/-- `GenesisState.Validate` (x/dex/types/genesis.go:24-144).  The maps of the code hold the objects seen so far; as duplicates
are refused, they are the given lists. -/
def GenesisState.validate (g : GenesisState) : Bool :=
  g.params.validate &&
  g.pairs.all (fun p => p.valid && decide (p.id ≤ g.lastPairId)) && decide (g.pairs.map Pair.key).Nodup &&
  g.pools.all (fun p => p.valid && decide (p.id ≤ g.lastPoolId) && (lookup Pair.key (p.pairId, 0) g.pairs).isSome) &&
  decide (g.pools.map PoolRec.key).Nodup &&
  g.deposits.all g.depositOk && decide (g.deposits.map DepReq.key).Nodup &&
  g.withdraws.all g.withdrawOk && decide (g.withdraws.map WdReq.key).Nodup &&
  g.orders.all g.orderOk && decide (g.orders.map OrderRec.key).Nodup &&
  g.numMM.all (fun r => r.num != 0)

/-- Keeper `InitGenesis` (x/dex/keeper/genesis.go:11-44); `none` is the panic on an invalid genesis. -/
def initGenesis (g : GenesisState) (s : State) : Option State :=
  if g.validate = false then none
  else
    let s := { s with params := g.params, lastPairId := g.lastPairId, lastPoolId := g.lastPoolId }
    let s := g.pairs.foldl State.setPair s
    let s := g.pools.foldl State.setPool s
    let s := g.deposits.foldl State.setDeposit s
    let s := g.withdraws.foldl State.setWithdraw s
    let s := g.orders.foldl State.setOrder s
    some (g.numMM.foldl (fun s r => s.setNumMM r.orderer r.pairId (some r.num)) s)

/-- Keeper `ExportGenesis` (x/dex/keeper/genesis.go:47-69).  The counters are listed by `IterateAllNumMMOrders`
(x/dex/keeper/store.go:597-608) in the order of the encoded addresses, which the model leaves open: `recs` is any list that
holds every stored counter once (`ListsCounters`). -/
def exportGenesis (s : State) (recs : List NumMMRecord) : GenesisState where
  params := s.params
  lastPairId := s.lastPairId
  lastPoolId := s.lastPoolId
  pairs := s.pairs
  pools := s.pools
  deposits := s.deposits
  withdraws := s.withdraws
  orders := s.orders
  numMM := recs

/-- `recs` lists every stored counter exactly once, as an iteration of the store does (x/dex/keeper/store.go:597-608). -/
def ListsCounters (s : State) (recs : List NumMMRecord) : Prop :=
  (recs.map (fun r => (r.orderer, r.pairId))).Nodup ∧ ∀ r : NumMMRecord, r ∈ recs ↔ s.numMM r.orderer r.pairId = some r.num

/-- `DefaultGenesis` (x/dex/types/genesis.go:8-21) with the given default parameters. -/
def defaultGenesis (p : Params) : GenesisState := ⟨p, 0, 0, [], [], [], [], [], []⟩

/-- Module `InitGenesis` (x/dex/module/genesis.go:11-14). -/
def moduleInitGenesis (g : GenesisState) (s : State) : Option State := setParams g.params s

/-- Module `ExportGenesis` (x/dex/module/genesis.go:17-24). -/
def moduleExportGenesis (default : Params) (s : State) : GenesisState := { defaultGenesis default with params := s.params }

end Verif.Dex

import Verif.Model.Genesis
import Verif.Spec.State
/-! # Specification vocabulary for genesis (C47) and the authority (C48) -/
namespace Verif.Spec
open Verif Verif.Dex

/-- A chain on which the module has stored nothing yet. -/
structure EmptyModule (s : State) : Prop where
  pairs : s.pairs = []
  pools : s.pools = []
  deposits : s.deposits = []
  withdraws : s.withdraws = []
  orders : s.orders = []
  numMM : ∀ a p, s.numMM a p = none

/-- The module stores the same things: parameters, id counters, pairs, pools, requests, orders and market-making counters. -/
structure SameModule (s s' : State) : Prop where
  params : s'.params = s.params
  lastPairId : s'.lastPairId = s.lastPairId
  lastPoolId : s'.lastPoolId = s.lastPoolId
  pairs : s'.pairs = s.pairs
  pools : s'.pools = s.pools
  deposits : s'.deposits = s.deposits
  withdraws : s'.withdraws = s.withdraws
  orders : s'.orders = s.orders
  numMM : ∀ a p, s'.numMM a p = s.numMM a p

/-- What genesis validation asks of a state beyond what the exchange maintains: no record dates from height 0, no order expires at
the zero time, and every stored deposit request, also an executed one, offered both coins of the pair. -/
structure Exportable (s : State) : Prop where
  depHeight : ∀ r ∈ s.deposits, r.msgHeight ≠ 0
  wdHeight : ∀ r ∈ s.withdraws, r.msgHeight ≠ 0
  orderHeight : ∀ o ∈ s.orders, o.msgHeight ≠ 0
  expire : ∀ o ∈ s.orders, o.expireAt ≠ zeroTime
  bothCoins : ∀ r ∈ s.deposits, ∀ pool ∈ s.pools, pool.id = r.poolId → ∀ pair ∈ s.pairs, pair.id = pool.pairId →
    amountOf r.coins pair.base ≠ 0 ∧ amountOf r.coins pair.quote ≠ 0

/-- Coins with positive amounts and no denom twice. -/
def PositiveCoins (cs : Coins) : Prop := (∀ c ∈ cs, 0 < c.amt) ∧ cs.Pairwise (fun a b => a.denom ≠ b.denom)

/-- The parameters that pass validation: positive batch size, initial pool coin supply and market-making order limit, positive fee
coins, and no negative amount, ratio, lifespan or fee rate. -/
structure ParamsValid (p : Params) : Prop where
  batchSize : 1 ≤ p.batchSize
  supply : 1 ≤ p.minInitialPoolCoinSupply
  pairFee : PositiveCoins p.pairCreationFee
  poolFee : PositiveCoins p.poolCreationFee
  initialDeposit : 0 ≤ p.minInitialDepositAmount
  priceRatio : 0 ≤ p.maxPriceLimitRatio
  mmOrders : 1 ≤ p.maxNumMMOrders
  lifespan : 0 ≤ p.maxOrderLifespan
  feeRate : 0 ≤ p.withdrawFeeRate

/-- Coins without the zero ones (`sdk.NewCoins` drops them). -/
def withoutZero (cs : Coins) : Coins := cs.filter (fun c => c.amt ≠ 0)

/-- A genesis state that is consistent record by record: ids are positive, at most the last id and not repeated; pools, requests and
orders refer to pools and pairs that are listed; the coins of requests and orders are those of their pool or pair; amounts are
positive or not negative. -/
structure GenesisValid (g : GenesisState) : Prop where
  params : ParamsValid g.params
  pairs : ∀ p ∈ g.pairs, 1 ≤ p.id ∧ p.id ≤ g.lastPairId ∧ 1 ≤ p.batchId ∧ ∀ x, p.lastPrice = some x → 0 < x
  pairIds : g.pairs.Pairwise (fun p q => p.id ≠ q.id)
  pools : ∀ p ∈ g.pools, 1 ≤ p.id ∧ p.id ≤ g.lastPoolId ∧ ∃ q ∈ g.pairs, q.id = p.pairId
  poolIds : g.pools.Pairwise (fun p q => p.id ≠ q.id)
  deposits : ∀ r ∈ g.deposits, 1 ≤ r.id ∧ 1 ≤ r.msgHeight ∧ PositiveCoins r.coins ∧ r.coins.length ≤ 2 ∧
    PositiveCoins (withoutZero r.accepted) ∧ (withoutZero r.accepted).length ≤ 2 ∧
    (∀ c ∈ withoutZero r.accepted, amountOf r.coins c.denom ≠ 0) ∧ 0 ≤ r.minted ∧
    ∃ pool ∈ g.pools, pool.id = r.poolId ∧ ∃ pair ∈ g.pairs, pair.id = pool.pairId ∧
      amountOf r.coins pair.base ≠ 0 ∧ amountOf r.coins pair.quote ≠ 0
  depositIds : g.deposits.Pairwise (fun r r' => ¬ (r.poolId = r'.poolId ∧ r.id = r'.id))
  withdraws : ∀ r ∈ g.withdraws, 1 ≤ r.id ∧ 1 ≤ r.msgHeight ∧ 0 < r.coin.amt ∧
    PositiveCoins (withoutZero r.withdrawn) ∧ (withoutZero r.withdrawn).length ≤ 2 ∧
    r.coin.denom = .pool r.poolId ∧ ∃ pool ∈ g.pools, pool.id = r.poolId
  withdrawIds : g.withdraws.Pairwise (fun r r' => ¬ (r.poolId = r'.poolId ∧ r.id = r'.id))
  orders : ∀ o ∈ g.orders, 1 ≤ o.id ∧ 1 ≤ o.msgHeight ∧ 0 < o.offer ∧ 0 ≤ o.remaining ∧ 0 ≤ o.received ∧ 0 < o.price ∧
    0 < o.amount ∧ 0 ≤ o.openAmt ∧ 1 ≤ o.batchId ∧ o.expireAt ≠ zeroTime ∧
    ∃ pair ∈ g.pairs, pair.id = o.pairId ∧ o.batchId ≤ pair.batchId ∧
      (o.dir = .buy → o.offerDenom = pair.quote ∧ o.demandDenom = pair.base) ∧
      (o.dir = .sell → o.offerDenom = pair.base ∧ o.demandDenom = pair.quote)
  orderIds : g.orders.Pairwise (fun o o' => ¬ (o.pairId = o'.pairId ∧ o.id = o'.id))
  counters : ∀ r ∈ g.numMM, 1 ≤ r.num

/-- Counters of a genesis state are listed once per orderer and pair. -/
def CountersOnce (g : GenesisState) : Prop :=
  g.numMM.Pairwise (fun r r' => ¬ (r.orderer = r'.orderer ∧ r.pairId = r'.pairId))

/-- The state after the import of a genesis state: exactly its parameters, ids, records and counters are stored; coins and the block
context are as before. -/
structure Imported (g : GenesisState) (s0 s' : State) : Prop where
  params : s'.params = g.params
  lastPairId : s'.lastPairId = g.lastPairId
  lastPoolId : s'.lastPoolId = g.lastPoolId
  pairs : s'.pairs.Perm g.pairs
  pools : s'.pools.Perm g.pools
  deposits : s'.deposits.Perm g.deposits
  withdraws : s'.withdraws.Perm g.withdraws
  orders : s'.orders.Perm g.orders
  counters : ∀ a p n, s'.numMM a p = some n ↔ ⟨a, p, n⟩ ∈ g.numMM
  bank : s'.bank = s0.bank
  height : s'.height = s0.height
  time : s'.time = s0.time

end Verif.Spec

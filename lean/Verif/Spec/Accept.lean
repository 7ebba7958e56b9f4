import Verif.Spec.Price
import Verif.Spec.History
import Verif.Model.Batch
/-! # Specification vocabulary: which messages are accepted (C35, C43, C57) -/
namespace Verif.Spec
open Verif Verif.Dex

/-- The account owns at least these coins. -/
def CanPay (b : Bank) (a : Addr) (amount : Denom → Int) : Prop := ∀ d, amount d ≤ b.bal a d

/-- A new pair: no pair has these denoms in this order, and the creator can pay the fee. -/
structure PairAcceptable (m : MsgCreatePair) (s : State) : Prop where
  new : ∀ p ∈ s.pairs, ¬ (p.base = m.base ∧ p.quote = m.quote)
  funds : CanPay s.bank (.user m.creator) (amountOf s.params.pairCreationFee)

/-- A new basic pool on the pair `p`. -/
structure BasicPoolAcceptable (m : MsgCreatePool) (s : State) (p : Pair) : Prop where
  pair : p ∈ s.pairs ∧ p.id = m.pairId
  coins : ∀ c ∈ m.coins, (c.denom = p.base ∨ c.denom = p.quote) ∧ s.params.minInitialDepositAmount ≤ c.amt
  /-- no basic pool of the pair is active, and not too many pools are -/
  onlyBasic : ∀ q ∈ s.pools, q.pairId = p.id → q.range = none → q.disabled = true
  cap : activePools s p.id < s.params.maxNumActivePools
  /-- the price, quote over base, is between 10^-15 and 10^20 -/
  price : 1000 ≤ Dec.quo (Dec.ofInt (amountOf m.coins p.quote)) (Dec.ofInt (amountOf m.coins p.base)) ∧
    Dec.quo (Dec.ofInt (amountOf m.coins p.quote)) (Dec.ofInt (amountOf m.coins p.base)) ≤ 10 ^ 38
  funds : CanPay s.bank (.user m.creator) (fun d => amountOf m.coins d + amountOf s.params.poolCreationFee d)

/-- A new ranged pool on the pair `p`; `ap` is the result of `amm.CreateRangedPool` (C56). -/
structure RangedPoolAcceptable (env : Env) (m : MsgCreateRangedPool) (s : State) (p : Pair) (ap : Amm.Pool) : Prop where
  pair : p ∈ s.pairs ∧ p.id = m.pairId
  coins : ∀ c ∈ m.coins, c.denom = p.base ∨ c.denom = p.quote
  ticks : IsTick s.params.tickPrec m.minPrice ∧ IsTick s.params.tickPrec m.maxPrice ∧ IsTick s.params.tickPrec m.initialPrice
  lowest : s.params.tickPrec ≤ 18 ∧ Amm.lowestTick s.params.tickPrec ≤ m.minPrice
  cap : activePools s p.id < s.params.maxNumActivePools
  created : Amm.createRangedPool env.sqrt (amountOf m.coins p.quote) (amountOf m.coins p.base) m.minPrice m.maxPrice m.initialPrice = .ok ap
  amounts : s.params.minInitialDepositAmount ≤ ap.rx ∨ s.params.minInitialDepositAmount ≤ ap.ry
  nonneg : 0 ≤ ap.rx ∧ 0 ≤ ap.ry
  funds : CanPay s.bank (.user m.creator) (fun d => (if d = p.quote then ap.rx else 0) + (if d = p.base then ap.ry else 0) +
    amountOf s.params.poolCreationFee d)

/-- A deposit request for the pool `q` of the pair `p`: an active pool, both coins for a basic pool, coins of the pair, reserves of at
most 10^40 with the deposit, and enough coins. -/
structure DepositAcceptable (m : MsgDeposit) (s : State) (q : PoolRec) (p : Pair) : Prop where
  pool : q ∈ s.pools ∧ q.id = m.poolId ∧ q.disabled = false
  pair : p ∈ s.pairs ∧ p.id = q.pairId
  both : q.range = none → m.coins.length = 2
  coins : ∀ c ∈ m.coins, c.denom = p.base ∨ c.denom = p.quote
  limits : ∀ d, d = p.base ∨ d = p.quote → s.bank.bal (.poolReserve q.id) d + amountOf m.coins d ≤ 10 ^ 40
  funds : CanPay s.bank (.user m.depositor) (amountOf m.coins)

/-- A withdraw request for the pool `q`. -/
structure WithdrawAcceptable (m : MsgWithdraw) (s : State) (q : PoolRec) : Prop where
  pool : q ∈ s.pools ∧ q.id = m.poolId ∧ q.disabled = false
  denom : m.coin.denom = .pool q.id
  funds : m.coin.amt ≤ s.bank.bal (.user m.withdrawer) m.coin.denom

/-- A market order on the pair `p`: its price is the highest (buy) or lowest (sell) one allowed by the price limits around the last
price, which must exist. -/
structure MarketAcceptable (m : MsgMarketOrder) (s : State) (p : Pair) (tick needed : Int) : Prop where
  pair : p ∈ s.pairs ∧ p.id = m.pairId
  funds : m.offer.amt ≤ s.bank.bal (.user m.orderer) m.offer.denom
  lifespan : m.lifespan ≤ s.params.maxOrderLifespan
  denoms : m.offer.denom = (if m.dir = .buy then p.quote else p.base) ∧ m.demand = (if m.dir = .buy then p.base else p.quote)
  onTick : ∃ last x, p.lastPrice = some last ∧ 0 < x ∧ TickFor m.dir s.params.tickPrec x tick ∧
    x = Dec.mul last (if m.dir = .buy then 10 ^ 18 + s.params.maxPriceLimitRatio else 10 ^ 18 - s.params.maxPriceLimitRatio)
  covered : NeededOffer m.dir tick m.amt needed ∧ needed ≤ m.offer.amt
  size : 100 ≤ m.amt ∧ 100 * 10 ^ 18 ≤ tick * m.amt

end Verif.Spec

import Verif.Model.Records
/-!
# When a record fits the wire format (C77, C78)

Numbers fit the Go types of their fields: 64 or 32 bits, 256 bits for `Int`, 315 bits for `LegacyDec`; times lie in the years 1 to 9999.
-/
namespace Verif.Pb

/-- Written and read back, the record is the same: `Marshal` gives `w`, which has the length `Size()` announced, and `Unmarshal` of `w` into an
empty record gives the record. -/
structure Sent {M : Type} (fs : List (Field M)) (zero m : M) (w : Bytes) : Prop where
  marshal : marshal fs m = some w
  size : sizeAll fs m = w.length
  unmarshal : unmarshal fs w zero = some m

/-- The numbers of a `Coin` fit their fields. -/
structure Coin.Fits (m : Coin) : Prop where
  amount : m.amount.natAbs < 2 ^ 256

/-- The numbers of a `UInt64Value` fit their fields. -/
structure UInt64Value.Fits (m : UInt64Value) : Prop where
  value : m.value < 2 ^ 64

/-- The numbers of a `Pair` fit their fields. -/
structure Pair.Fits (m : Pair) : Prop where
  id : m.id < 2 ^ 64
  lastOrderId : m.lastOrderId < 2 ^ 64
  lastPrice : ∀ v, m.lastPrice = some v → v.natAbs < 2 ^ 315
  currentBatchId : m.currentBatchId < 2 ^ 64

/-- The numbers of a `Pool` fit their fields. -/
structure Pool.Fits (m : Pool) : Prop where
  typ : -2 ^ 31 ≤ m.typ ∧ m.typ < 2 ^ 31
  id : m.id < 2 ^ 64
  pairId : m.pairId < 2 ^ 64
  minPrice : ∀ v, m.minPrice = some v → v.natAbs < 2 ^ 315
  maxPrice : ∀ v, m.maxPrice = some v → v.natAbs < 2 ^ 315
  lastDepositRequestId : m.lastDepositRequestId < 2 ^ 64
  lastWithdrawRequestId : m.lastWithdrawRequestId < 2 ^ 64

/-- The numbers of a `DepositRequest` fit their fields. -/
structure DepositRequest.Fits (m : DepositRequest) : Prop where
  id : m.id < 2 ^ 64
  poolId : m.poolId < 2 ^ 64
  msgHeight : -2 ^ 63 ≤ m.msgHeight ∧ m.msgHeight < 2 ^ 63
  depositCoins : ∀ v ∈ m.depositCoins, v.Fits
  acceptedCoins : ∀ v ∈ m.acceptedCoins, v.Fits
  mintedPoolCoin : m.mintedPoolCoin.Fits
  status : -2 ^ 31 ≤ m.status ∧ m.status < 2 ^ 31

/-- The numbers of a `WithdrawRequest` fit their fields. -/
structure WithdrawRequest.Fits (m : WithdrawRequest) : Prop where
  id : m.id < 2 ^ 64
  poolId : m.poolId < 2 ^ 64
  msgHeight : -2 ^ 63 ≤ m.msgHeight ∧ m.msgHeight < 2 ^ 63
  poolCoin : m.poolCoin.Fits
  withdrawnCoins : ∀ v ∈ m.withdrawnCoins, v.Fits
  status : -2 ^ 31 ≤ m.status ∧ m.status < 2 ^ 31

/-- The numbers of a `Order` fit their fields. -/
structure Order.Fits (m : Order) : Prop where
  typ : -2 ^ 31 ≤ m.typ ∧ m.typ < 2 ^ 31
  id : m.id < 2 ^ 64
  pairId : m.pairId < 2 ^ 64
  msgHeight : -2 ^ 63 ≤ m.msgHeight ∧ m.msgHeight < 2 ^ 63
  direction : -2 ^ 31 ≤ m.direction ∧ m.direction < 2 ^ 31
  offerCoin : m.offerCoin.Fits
  remainingOfferCoin : m.remainingOfferCoin.Fits
  receivedCoin : m.receivedCoin.Fits
  price : m.price.natAbs < 2 ^ 315
  amount : m.amount.natAbs < 2 ^ 256
  openAmount : m.openAmount.natAbs < 2 ^ 256
  batchId : m.batchId < 2 ^ 64
  expireAt : -62135596800 ≤ m.expireAt.seconds ∧ m.expireAt.seconds < 253402300800 ∧ 0 ≤ m.expireAt.nanos ∧ m.expireAt.nanos < 1000000000
  status : -2 ^ 31 ≤ m.status ∧ m.status < 2 ^ 31

/-- The numbers of a `Params` fit their fields. -/
structure Params.Fits (m : Params) : Prop where
  batchSize : m.batchSize < 2 ^ 32
  tickPrecision : m.tickPrecision < 2 ^ 32
  minInitialPoolCoinSupply : m.minInitialPoolCoinSupply.natAbs < 2 ^ 256
  pairCreationFee : ∀ v ∈ m.pairCreationFee, v.Fits
  poolCreationFee : ∀ v ∈ m.poolCreationFee, v.Fits
  minInitialDepositAmount : m.minInitialDepositAmount.natAbs < 2 ^ 256
  maxPriceLimitRatio : m.maxPriceLimitRatio.natAbs < 2 ^ 315
  maxNumMarketMakingOrderTicks : m.maxNumMarketMakingOrderTicks < 2 ^ 32
  maxNumMarketMakingOrdersPerPair : m.maxNumMarketMakingOrdersPerPair < 2 ^ 32
  maxOrderLifespan : -2 ^ 63 ≤ m.maxOrderLifespan ∧ m.maxOrderLifespan < 2 ^ 63
  swapFeeRate : m.swapFeeRate.natAbs < 2 ^ 315
  withdrawFeeRate : m.withdrawFeeRate.natAbs < 2 ^ 315
  depositExtraGas : m.depositExtraGas < 2 ^ 64
  withdrawExtraGas : m.withdrawExtraGas < 2 ^ 64
  orderExtraGas : m.orderExtraGas < 2 ^ 64
  maxNumActivePoolsPerPair : m.maxNumActivePoolsPerPair < 2 ^ 32

/-- The numbers of a `NumMMOrdersRecord` fit their fields. -/
structure NumMMOrdersRecord.Fits (m : NumMMOrdersRecord) : Prop where
  pairId : m.pairId < 2 ^ 64
  numMarketMakingOrders : m.numMarketMakingOrders < 2 ^ 32

/-- The numbers of a `GenesisState` fit their fields. -/
structure GenesisState.Fits (m : GenesisState) : Prop where
  params : m.params.Fits
  lastPairId : m.lastPairId < 2 ^ 64
  lastPoolId : m.lastPoolId < 2 ^ 64
  pairs : ∀ v ∈ m.pairs, v.Fits
  pools : ∀ v ∈ m.pools, v.Fits
  depositRequests : ∀ v ∈ m.depositRequests, v.Fits
  withdrawRequests : ∀ v ∈ m.withdrawRequests, v.Fits
  orders : ∀ v ∈ m.orders, v.Fits
  numMarketMakingOrdersRecords : ∀ v ∈ m.numMarketMakingOrdersRecords, v.Fits

/-- No condition on `MsgCreatePair`: it holds strings only. -/
def MsgCreatePair.Fits (_ : MsgCreatePair) : Prop := True

/-- The numbers of a `MsgCreatePool` fit their fields. -/
structure MsgCreatePool.Fits (m : MsgCreatePool) : Prop where
  pairId : m.pairId < 2 ^ 64
  depositCoins : ∀ v ∈ m.depositCoins, v.Fits

/-- The numbers of a `MsgCreateRangedPool` fit their fields. -/
structure MsgCreateRangedPool.Fits (m : MsgCreateRangedPool) : Prop where
  pairId : m.pairId < 2 ^ 64
  depositCoins : ∀ v ∈ m.depositCoins, v.Fits
  minPrice : m.minPrice.natAbs < 2 ^ 315
  maxPrice : m.maxPrice.natAbs < 2 ^ 315
  initialPrice : m.initialPrice.natAbs < 2 ^ 315

/-- The numbers of a `MsgDeposit` fit their fields. -/
structure MsgDeposit.Fits (m : MsgDeposit) : Prop where
  poolId : m.poolId < 2 ^ 64
  depositCoins : ∀ v ∈ m.depositCoins, v.Fits

/-- The numbers of a `MsgWithdraw` fit their fields. -/
structure MsgWithdraw.Fits (m : MsgWithdraw) : Prop where
  poolId : m.poolId < 2 ^ 64
  poolCoin : m.poolCoin.Fits

/-- The numbers of a `MsgLimitOrder` fit their fields. -/
structure MsgLimitOrder.Fits (m : MsgLimitOrder) : Prop where
  pairId : m.pairId < 2 ^ 64
  direction : -2 ^ 31 ≤ m.direction ∧ m.direction < 2 ^ 31
  offerCoin : m.offerCoin.Fits
  price : m.price.natAbs < 2 ^ 315
  amount : m.amount.natAbs < 2 ^ 256
  orderLifespan : -2 ^ 63 ≤ m.orderLifespan ∧ m.orderLifespan < 2 ^ 63

/-- The numbers of a `MsgMarketOrder` fit their fields. -/
structure MsgMarketOrder.Fits (m : MsgMarketOrder) : Prop where
  pairId : m.pairId < 2 ^ 64
  direction : -2 ^ 31 ≤ m.direction ∧ m.direction < 2 ^ 31
  offerCoin : m.offerCoin.Fits
  amount : m.amount.natAbs < 2 ^ 256
  orderLifespan : -2 ^ 63 ≤ m.orderLifespan ∧ m.orderLifespan < 2 ^ 63

/-- The numbers of a `MsgMMOrder` fit their fields. -/
structure MsgMMOrder.Fits (m : MsgMMOrder) : Prop where
  pairId : m.pairId < 2 ^ 64
  direction : -2 ^ 31 ≤ m.direction ∧ m.direction < 2 ^ 31
  offerCoin : m.offerCoin.Fits
  price : m.price.natAbs < 2 ^ 315
  amount : m.amount.natAbs < 2 ^ 256
  orderLifespan : -2 ^ 63 ≤ m.orderLifespan ∧ m.orderLifespan < 2 ^ 63

/-- The numbers of a `MsgCancelOrder` fit their fields. -/
structure MsgCancelOrder.Fits (m : MsgCancelOrder) : Prop where
  pairId : m.pairId < 2 ^ 64
  orderId : m.orderId < 2 ^ 64

/-- The numbers of a `MsgCancelAllOrders` fit their fields. -/
structure MsgCancelAllOrders.Fits (m : MsgCancelAllOrders) : Prop where
  pairIds : ∀ v ∈ m.pairIds, v < 2 ^ 64

/-- The numbers of a `MsgUpdateParams` fit their fields. -/
structure MsgUpdateParams.Fits (m : MsgUpdateParams) : Prop where
  params : m.params.Fits

end Verif.Pb

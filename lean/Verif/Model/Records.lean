import Verif.Model.Proto
/-!
# The records and messages of the module on the wire: x/dex/types/{dex,params,genesis,tx}.pb.go

One structure and one list of fields per message; the tags are those written by `MarshalToSizedBuffer`, the numbers the cases of
`Unmarshal`.  Strings are byte strings, enums integers, `Int` and `LegacyDec` integers (the latter in units of `10^-18`; nil is zero).
-/
namespace Verif.Pb

/-- `Coin` (cosmos-sdk/types/coin.pb.go). -/
structure Coin where
  denom : Bytes := []
  amount : Int := 0
  deriving DecidableEq, Repr

/-- The fields of `Coin` (cosmos-sdk/types/coin.pb.go). -/
def coinFields : List (Field Coin) :=
  [stringField 1 [0x0a] (·.denom) (fun m v => { m with denom := v }),
   valueField 2 [0x12] intCodec (·.amount) (fun m v => { m with amount := v })]

@[inherit_doc coinFields] def coinCodec : Codec Coin := .message coinFields {}

/-- `UInt64Value` (gogoproto/types/wrappers.pb.go; used at x/dex/keeper/store.go:30, :73, :145, :188). -/
structure UInt64Value where
  value : Nat := 0
  deriving DecidableEq, Repr

/-- The field of `UInt64Value` (gogoproto/types/wrappers.pb.go). -/
def uInt64ValueFields : List (Field UInt64Value) := [uint64Field 1 [0x8] (·.value) (fun m v => { m with value := v })]

/-- `Pair` (x/dex/types/dex.pb.go:222-230). -/
structure Pair where
  id : Nat := 0
  baseCoinDenom : Bytes := []
  quoteCoinDenom : Bytes := []
  escrowAddress : Bytes := []
  lastOrderId : Nat := 0
  lastPrice : Option Int := none
  currentBatchId : Nat := 0
  deriving DecidableEq, Repr

/-- The fields of `Pair` (x/dex/types/dex.pb.go:904-958, 1369-1401, 1576-1814). -/
def pairFields : List (Field Pair) :=
  [uint64Field 1 [0x8] (·.id) (fun m v => { m with id := v }),
   stringField 2 [0x12] (·.baseCoinDenom) (fun m v => { m with baseCoinDenom := v }),
   stringField 3 [0x1a] (·.quoteCoinDenom) (fun m v => { m with quoteCoinDenom := v }),
   stringField 4 [0x22] (·.escrowAddress) (fun m v => { m with escrowAddress := v }),
   uint64Field 5 [0x28] (·.lastOrderId) (fun m v => { m with lastOrderId := v }),
   pointerField 6 [0x32] decCodec (·.lastPrice) (fun m v => { m with lastPrice := v }),
   uint64Field 7 [0x38] (·.currentBatchId) (fun m v => { m with currentBatchId := v })]

@[inherit_doc pairFields] def pairCodec : Codec Pair := .message pairFields {}

/-- `Pool` (x/dex/types/dex.pb.go:309-321). -/
structure Pool where
  typ : Int := 0
  id : Nat := 0
  pairId : Nat := 0
  creator : Bytes := []
  reserveAddress : Bytes := []
  poolCoinDenom : Bytes := []
  minPrice : Option Int := none
  maxPrice : Option Int := none
  lastDepositRequestId : Nat := 0
  lastWithdrawRequestId : Nat := 0
  disabled : Bool := false
  deriving DecidableEq, Repr

/-- The fields of `Pool` (x/dex/types/dex.pb.go:975-1061, 1403-1448, 1815-2147). -/
def poolFields : List (Field Pool) :=
  [enumField 1 [0x8] (·.typ) (fun m v => { m with typ := v }),
   uint64Field 2 [0x10] (·.id) (fun m v => { m with id := v }),
   uint64Field 3 [0x18] (·.pairId) (fun m v => { m with pairId := v }),
   stringField 4 [0x22] (·.creator) (fun m v => { m with creator := v }),
   stringField 5 [0x2a] (·.reserveAddress) (fun m v => { m with reserveAddress := v }),
   stringField 6 [0x32] (·.poolCoinDenom) (fun m v => { m with poolCoinDenom := v }),
   pointerField 7 [0x3a] decCodec (·.minPrice) (fun m v => { m with minPrice := v }),
   pointerField 8 [0x42] decCodec (·.maxPrice) (fun m v => { m with maxPrice := v }),
   uint64Field 9 [0x48] (·.lastDepositRequestId) (fun m v => { m with lastDepositRequestId := v }),
   uint64Field 10 [0x50] (·.lastWithdrawRequestId) (fun m v => { m with lastWithdrawRequestId := v }),
   boolField 11 [0x58] (·.disabled) (fun m v => { m with disabled := v })]

@[inherit_doc poolFields] def poolCodec : Codec Pool := .message poolFields {}

/-- `DepositRequest` (x/dex/types/dex.pb.go:420-435). -/
structure DepositRequest where
  id : Nat := 0
  poolId : Nat := 0
  msgHeight : Int := 0
  depositor : Bytes := []
  depositCoins : List Coin := []
  acceptedCoins : List Coin := []
  mintedPoolCoin : Coin := {}
  status : Int := 0
  deriving DecidableEq, Repr

/-- The fields of `DepositRequest` (x/dex/types/dex.pb.go:1078-1149, 1450-1487, 2148-2406). -/
def depositRequestFields : List (Field DepositRequest) :=
  [uint64Field 1 [0x8] (·.id) (fun m v => { m with id := v }),
   uint64Field 2 [0x10] (·.poolId) (fun m v => { m with poolId := v }),
   int64Field 3 [0x18] (·.msgHeight) (fun m v => { m with msgHeight := v }),
   stringField 4 [0x22] (·.depositor) (fun m v => { m with depositor := v }),
   repeatedField 5 [0x2a] coinCodec (·.depositCoins) (fun m v => { m with depositCoins := v }),
   repeatedField 6 [0x32] coinCodec (·.acceptedCoins) (fun m v => { m with acceptedCoins := v }),
   valueField 7 [0x3a] coinCodec (·.mintedPoolCoin) (fun m v => { m with mintedPoolCoin := v }),
   enumField 8 [0x40] (·.status) (fun m v => { m with status := v })]

@[inherit_doc depositRequestFields] def depositRequestCodec : Codec DepositRequest := .message depositRequestFields {}

/-- `WithdrawRequest` (x/dex/types/dex.pb.go:527-541). -/
structure WithdrawRequest where
  id : Nat := 0
  poolId : Nat := 0
  msgHeight : Int := 0
  withdrawer : Bytes := []
  poolCoin : Coin := {}
  withdrawnCoins : List Coin := []
  status : Int := 0
  deriving DecidableEq, Repr

/-- The fields of `WithdrawRequest` (x/dex/types/dex.pb.go:1166-1223, 1489-1520, 2407-2631). -/
def withdrawRequestFields : List (Field WithdrawRequest) :=
  [uint64Field 1 [0x8] (·.id) (fun m v => { m with id := v }),
   uint64Field 2 [0x10] (·.poolId) (fun m v => { m with poolId := v }),
   int64Field 3 [0x18] (·.msgHeight) (fun m v => { m with msgHeight := v }),
   stringField 4 [0x22] (·.withdrawer) (fun m v => { m with withdrawer := v }),
   valueField 5 [0x2a] coinCodec (·.poolCoin) (fun m v => { m with poolCoin := v }),
   repeatedField 6 [0x32] coinCodec (·.withdrawnCoins) (fun m v => { m with withdrawnCoins := v }),
   enumField 7 [0x38] (·.status) (fun m v => { m with status := v })]

@[inherit_doc withdrawRequestFields] def withdrawRequestCodec : Codec WithdrawRequest := .message withdrawRequestFields {}

/-- `Order` (x/dex/types/dex.pb.go:626-652). -/
structure Order where
  typ : Int := 0
  id : Nat := 0
  pairId : Nat := 0
  msgHeight : Int := 0
  orderer : Bytes := []
  direction : Int := 0
  offerCoin : Coin := {}
  remainingOfferCoin : Coin := {}
  receivedCoin : Coin := {}
  price : Int := 0
  amount : Int := 0
  openAmount : Int := 0
  batchId : Nat := 0
  expireAt : Stamp := timeCodec.zero
  status : Int := 0
  deriving DecidableEq, Repr

/-- The fields of `Order` (x/dex/types/dex.pb.go:1240-1356, 1522-1568, 2632-3080). -/
def orderFields : List (Field Order) :=
  [enumField 1 [0x8] (·.typ) (fun m v => { m with typ := v }),
   uint64Field 2 [0x10] (·.id) (fun m v => { m with id := v }),
   uint64Field 3 [0x18] (·.pairId) (fun m v => { m with pairId := v }),
   int64Field 4 [0x20] (·.msgHeight) (fun m v => { m with msgHeight := v }),
   stringField 5 [0x2a] (·.orderer) (fun m v => { m with orderer := v }),
   enumField 6 [0x30] (·.direction) (fun m v => { m with direction := v }),
   valueField 7 [0x3a] coinCodec (·.offerCoin) (fun m v => { m with offerCoin := v }),
   valueField 8 [0x42] coinCodec (·.remainingOfferCoin) (fun m v => { m with remainingOfferCoin := v }),
   valueField 9 [0x4a] coinCodec (·.receivedCoin) (fun m v => { m with receivedCoin := v }),
   valueField 10 [0x52] decCodec (·.price) (fun m v => { m with price := v }),
   valueField 11 [0x5a] intCodec (·.amount) (fun m v => { m with amount := v }),
   valueField 12 [0x62] intCodec (·.openAmount) (fun m v => { m with openAmount := v }),
   uint64Field 13 [0x68] (·.batchId) (fun m v => { m with batchId := v }),
   valueField 14 [0x72] timeCodec (·.expireAt) (fun m v => { m with expireAt := v }),
   enumField 15 [0x78] (·.status) (fun m v => { m with status := v })]

@[inherit_doc orderFields] def orderCodec : Codec Order := .message orderFields {}

/-- `Params` (x/dex/types/params.pb.go:38-57). -/
structure Params where
  batchSize : Nat := 0
  tickPrecision : Nat := 0
  feeCollectorAddress : Bytes := []
  dustCollectorAddress : Bytes := []
  minInitialPoolCoinSupply : Int := 0
  pairCreationFee : List Coin := []
  poolCreationFee : List Coin := []
  minInitialDepositAmount : Int := 0
  maxPriceLimitRatio : Int := 0
  maxNumMarketMakingOrderTicks : Nat := 0
  maxNumMarketMakingOrdersPerPair : Nat := 0
  maxOrderLifespan : Int := 0
  swapFeeRate : Int := 0
  withdrawFeeRate : Int := 0
  depositExtraGas : Nat := 0
  withdrawExtraGas : Nat := 0
  orderExtraGas : Nat := 0
  maxNumActivePoolsPerPair : Nat := 0
  deriving DecidableEq, Repr

/-- The fields of `Params` (x/dex/types/params.pb.go:239-391, 404-467, 475-1011). -/
def paramsFields : List (Field Params) :=
  [uint32Field 1 [0x8] (·.batchSize) (fun m v => { m with batchSize := v }),
   uint32Field 2 [0x10] (·.tickPrecision) (fun m v => { m with tickPrecision := v }),
   stringField 3 [0x1a] (·.feeCollectorAddress) (fun m v => { m with feeCollectorAddress := v }),
   stringField 4 [0x22] (·.dustCollectorAddress) (fun m v => { m with dustCollectorAddress := v }),
   valueField 5 [0x2a] intCodec (·.minInitialPoolCoinSupply) (fun m v => { m with minInitialPoolCoinSupply := v }),
   repeatedField 6 [0x32] coinCodec (·.pairCreationFee) (fun m v => { m with pairCreationFee := v }),
   repeatedField 7 [0x3a] coinCodec (·.poolCreationFee) (fun m v => { m with poolCreationFee := v }),
   valueField 8 [0x42] intCodec (·.minInitialDepositAmount) (fun m v => { m with minInitialDepositAmount := v }),
   valueField 9 [0x4a] decCodec (·.maxPriceLimitRatio) (fun m v => { m with maxPriceLimitRatio := v }),
   uint32Field 10 [0x50] (·.maxNumMarketMakingOrderTicks) (fun m v => { m with maxNumMarketMakingOrderTicks := v }),
   uint32Field 11 [0x58] (·.maxNumMarketMakingOrdersPerPair) (fun m v => { m with maxNumMarketMakingOrdersPerPair := v }),
   valueField 12 [0x62] durationCodec (·.maxOrderLifespan) (fun m v => { m with maxOrderLifespan := v }),
   valueField 13 [0x6a] decCodec (·.swapFeeRate) (fun m v => { m with swapFeeRate := v }),
   valueField 14 [0x72] decCodec (·.withdrawFeeRate) (fun m v => { m with withdrawFeeRate := v }),
   uint64Field 15 [0x78] (·.depositExtraGas) (fun m v => { m with depositExtraGas := v }),
   uint64Field 16 [0x80, 0x1] (·.withdrawExtraGas) (fun m v => { m with withdrawExtraGas := v }),
   uint64Field 17 [0x88, 0x1] (·.orderExtraGas) (fun m v => { m with orderExtraGas := v }),
   uint32Field 18 [0x90, 0x1] (·.maxNumActivePoolsPerPair) (fun m v => { m with maxNumActivePoolsPerPair := v })]

@[inherit_doc paramsFields] def paramsCodec : Codec Params := .message paramsFields {}

/-- `NumMMOrdersRecord` (x/dex/types/genesis.pb.go:138-142). -/
structure NumMMOrdersRecord where
  orderer : Bytes := []
  pairId : Nat := 0
  numMarketMakingOrders : Nat := 0
  deriving DecidableEq, Repr

/-- The fields of `NumMMOrdersRecord` (x/dex/types/genesis.pb.go:380-403, 469-486, 819-938). -/
def numMMOrdersRecordFields : List (Field NumMMOrdersRecord) :=
  [stringField 1 [0xa] (·.orderer) (fun m v => { m with orderer := v }),
   uint64Field 2 [0x10] (·.pairId) (fun m v => { m with pairId := v }),
   uint32Field 3 [0x18] (·.numMarketMakingOrders) (fun m v => { m with numMarketMakingOrders := v })]

@[inherit_doc numMMOrdersRecordFields] def numMMOrdersRecordCodec : Codec NumMMOrdersRecord := .message numMMOrdersRecordFields {}

/-- `GenesisState` (x/dex/types/genesis.pb.go:28-38). -/
structure GenesisState where
  params : Params := {}
  lastPairId : Nat := 0
  lastPoolId : Nat := 0
  pairs : List Pair := []
  pools : List Pool := []
  depositRequests : List DepositRequest := []
  withdrawRequests : List WithdrawRequest := []
  orders : List Order := []
  numMarketMakingOrdersRecords : List NumMMOrdersRecord := []
  deriving DecidableEq, Repr

/-- The fields of `GenesisState` (x/dex/types/genesis.pb.go:253-363, 416-467, 494-818). -/
def genesisStateFields : List (Field GenesisState) :=
  [valueField 1 [0xa] paramsCodec (·.params) (fun m v => { m with params := v }),
   uint64Field 2 [0x10] (·.lastPairId) (fun m v => { m with lastPairId := v }),
   uint64Field 3 [0x18] (·.lastPoolId) (fun m v => { m with lastPoolId := v }),
   repeatedField 4 [0x22] pairCodec (·.pairs) (fun m v => { m with pairs := v }),
   repeatedField 5 [0x2a] poolCodec (·.pools) (fun m v => { m with pools := v }),
   repeatedField 6 [0x32] depositRequestCodec (·.depositRequests) (fun m v => { m with depositRequests := v }),
   repeatedField 7 [0x3a] withdrawRequestCodec (·.withdrawRequests) (fun m v => { m with withdrawRequests := v }),
   repeatedField 8 [0x42] orderCodec (·.orders) (fun m v => { m with orders := v }),
   repeatedField 9 [0x4a] numMMOrdersRecordCodec (·.numMarketMakingOrdersRecords) (fun m v => { m with numMarketMakingOrdersRecords := v })]

@[inherit_doc genesisStateFields] def genesisStateCodec : Codec GenesisState := .message genesisStateFields {}

/-- `MsgCreatePair` (x/dex/types/tx.pb.go:42-49). -/
structure MsgCreatePair where
  creator : Bytes := []
  baseCoinDenom : Bytes := []
  quoteCoinDenom : Bytes := []
  deriving DecidableEq, Repr

/-- The fields of `MsgCreatePair` (x/dex/types/tx.pb.go:1815-1842, 2703-2722, 3064-3209). -/
def msgCreatePairFields : List (Field MsgCreatePair) :=
  [stringField 1 [0xa] (·.creator) (fun m v => { m with creator := v }),
   stringField 2 [0x12] (·.baseCoinDenom) (fun m v => { m with baseCoinDenom := v }),
   stringField 3 [0x1a] (·.quoteCoinDenom) (fun m v => { m with quoteCoinDenom := v })]

@[inherit_doc msgCreatePairFields] def msgCreatePairCodec : Codec MsgCreatePair := .message msgCreatePairFields {}

/-- `MsgCreatePool` (x/dex/types/tx.pb.go:142-149). -/
structure MsgCreatePool where
  creator : Bytes := []
  pairId : Nat := 0
  depositCoins : List Coin := []
  deriving DecidableEq, Repr

/-- The fields of `MsgCreatePool` (x/dex/types/tx.pb.go:1882-1914, 2733-2753, 3260-3394). -/
def msgCreatePoolFields : List (Field MsgCreatePool) :=
  [stringField 1 [0xa] (·.creator) (fun m v => { m with creator := v }),
   uint64Field 2 [0x10] (·.pairId) (fun m v => { m with pairId := v }),
   repeatedField 3 [0x1a] coinCodec (·.depositCoins) (fun m v => { m with depositCoins := v })]

@[inherit_doc msgCreatePoolFields] def msgCreatePoolCodec : Codec MsgCreatePool := .message msgCreatePoolFields {}

/-- `MsgCreateRangedPool` (x/dex/types/tx.pb.go:243-253). -/
structure MsgCreateRangedPool where
  creator : Bytes := []
  pairId : Nat := 0
  depositCoins : List Coin := []
  minPrice : Int := 0
  maxPrice : Int := 0
  initialPrice : Int := 0
  deriving DecidableEq, Repr

/-- The fields of `MsgCreateRangedPool` (x/dex/types/tx.pb.go:1954-2016, 2764-2790, 3445-3681). -/
def msgCreateRangedPoolFields : List (Field MsgCreateRangedPool) :=
  [stringField 1 [0xa] (·.creator) (fun m v => { m with creator := v }),
   uint64Field 2 [0x10] (·.pairId) (fun m v => { m with pairId := v }),
   repeatedField 3 [0x1a] coinCodec (·.depositCoins) (fun m v => { m with depositCoins := v }),
   valueField 4 [0x22] decCodec (·.minPrice) (fun m v => { m with minPrice := v }),
   valueField 5 [0x2a] decCodec (·.maxPrice) (fun m v => { m with maxPrice := v }),
   valueField 6 [0x32] decCodec (·.initialPrice) (fun m v => { m with initialPrice := v })]

@[inherit_doc msgCreateRangedPoolFields] def msgCreateRangedPoolCodec : Codec MsgCreateRangedPool := .message msgCreateRangedPoolFields {}

/-- `MsgDeposit` (x/dex/types/tx.pb.go:347-354). -/
structure MsgDeposit where
  depositor : Bytes := []
  poolId : Nat := 0
  depositCoins : List Coin := []
  deriving DecidableEq, Repr

/-- The fields of `MsgDeposit` (x/dex/types/tx.pb.go:2056-2088, 2801-2821, 3732-3866). -/
def msgDepositFields : List (Field MsgDeposit) :=
  [stringField 1 [0xa] (·.depositor) (fun m v => { m with depositor := v }),
   uint64Field 2 [0x10] (·.poolId) (fun m v => { m with poolId := v }),
   repeatedField 3 [0x1a] coinCodec (·.depositCoins) (fun m v => { m with depositCoins := v })]

@[inherit_doc msgDepositFields] def msgDepositCodec : Codec MsgDeposit := .message msgDepositFields {}

/-- `MsgWithdraw` (x/dex/types/tx.pb.go:448-455). -/
structure MsgWithdraw where
  withdrawer : Bytes := []
  poolId : Nat := 0
  poolCoin : Coin := {}
  deriving DecidableEq, Repr

/-- The fields of `MsgWithdraw` (x/dex/types/tx.pb.go:2128-2156, 2832-2848, 3917-4050). -/
def msgWithdrawFields : List (Field MsgWithdraw) :=
  [stringField 1 [0xa] (·.withdrawer) (fun m v => { m with withdrawer := v }),
   uint64Field 2 [0x10] (·.poolId) (fun m v => { m with poolId := v }),
   valueField 3 [0x1a] coinCodec (·.poolCoin) (fun m v => { m with poolCoin := v })]

@[inherit_doc msgWithdrawFields] def msgWithdrawCodec : Codec MsgWithdraw := .message msgWithdrawFields {}

/-- `MsgLimitOrder` (x/dex/types/tx.pb.go:549-566). -/
structure MsgLimitOrder where
  orderer : Bytes := []
  pairId : Nat := 0
  direction : Int := 0
  offerCoin : Coin := {}
  demandCoinDenom : Bytes := []
  price : Int := 0
  amount : Int := 0
  orderLifespan : Int := 0
  deriving DecidableEq, Repr

/-- The fields of `MsgLimitOrder` (x/dex/types/tx.pb.go:2196-2264, 2859-2888, 4101-4386). -/
def msgLimitOrderFields : List (Field MsgLimitOrder) :=
  [stringField 1 [0xa] (·.orderer) (fun m v => { m with orderer := v }),
   uint64Field 2 [0x10] (·.pairId) (fun m v => { m with pairId := v }),
   enumField 3 [0x18] (·.direction) (fun m v => { m with direction := v }),
   valueField 4 [0x22] coinCodec (·.offerCoin) (fun m v => { m with offerCoin := v }),
   stringField 5 [0x2a] (·.demandCoinDenom) (fun m v => { m with demandCoinDenom := v }),
   valueField 6 [0x32] decCodec (·.price) (fun m v => { m with price := v }),
   valueField 7 [0x3a] intCodec (·.amount) (fun m v => { m with amount := v }),
   valueField 8 [0x42] durationCodec (·.orderLifespan) (fun m v => { m with orderLifespan := v })]

@[inherit_doc msgLimitOrderFields] def msgLimitOrderCodec : Codec MsgLimitOrder := .message msgLimitOrderFields {}

/-- `MsgMarketOrder` (x/dex/types/tx.pb.go:681-696). -/
structure MsgMarketOrder where
  orderer : Bytes := []
  pairId : Nat := 0
  direction : Int := 0
  offerCoin : Coin := {}
  demandCoinDenom : Bytes := []
  amount : Int := 0
  orderLifespan : Int := 0
  deriving DecidableEq, Repr

/-- The fields of `MsgMarketOrder` (x/dex/types/tx.pb.go:2304-2362, 2899-2926, 4437-4688). -/
def msgMarketOrderFields : List (Field MsgMarketOrder) :=
  [stringField 1 [0xa] (·.orderer) (fun m v => { m with orderer := v }),
   uint64Field 2 [0x10] (·.pairId) (fun m v => { m with pairId := v }),
   enumField 3 [0x18] (·.direction) (fun m v => { m with direction := v }),
   valueField 4 [0x22] coinCodec (·.offerCoin) (fun m v => { m with offerCoin := v }),
   stringField 5 [0x2a] (·.demandCoinDenom) (fun m v => { m with demandCoinDenom := v }),
   valueField 6 [0x32] intCodec (·.amount) (fun m v => { m with amount := v }),
   valueField 7 [0x3a] durationCodec (·.orderLifespan) (fun m v => { m with orderLifespan := v })]

@[inherit_doc msgMarketOrderFields] def msgMarketOrderCodec : Codec MsgMarketOrder := .message msgMarketOrderFields {}

/-- `MsgMMOrder` (x/dex/types/tx.pb.go:811-828). -/
structure MsgMMOrder where
  orderer : Bytes := []
  pairId : Nat := 0
  direction : Int := 0
  offerCoin : Coin := {}
  demandCoinDenom : Bytes := []
  price : Int := 0
  amount : Int := 0
  orderLifespan : Int := 0
  deriving DecidableEq, Repr

/-- The fields of `MsgMMOrder` (x/dex/types/tx.pb.go:2402-2470, 2937-2966, 4739-5024). -/
def msgMMOrderFields : List (Field MsgMMOrder) :=
  [stringField 1 [0xa] (·.orderer) (fun m v => { m with orderer := v }),
   uint64Field 2 [0x10] (·.pairId) (fun m v => { m with pairId := v }),
   enumField 3 [0x18] (·.direction) (fun m v => { m with direction := v }),
   valueField 4 [0x22] coinCodec (·.offerCoin) (fun m v => { m with offerCoin := v }),
   stringField 5 [0x2a] (·.demandCoinDenom) (fun m v => { m with demandCoinDenom := v }),
   valueField 6 [0x32] decCodec (·.price) (fun m v => { m with price := v }),
   valueField 7 [0x3a] intCodec (·.amount) (fun m v => { m with amount := v }),
   valueField 8 [0x42] durationCodec (·.orderLifespan) (fun m v => { m with orderLifespan := v })]

@[inherit_doc msgMMOrderFields] def msgMMOrderCodec : Codec MsgMMOrder := .message msgMMOrderFields {}

/-- `MsgCancelOrder` (x/dex/types/tx.pb.go:943-950). -/
structure MsgCancelOrder where
  orderer : Bytes := []
  pairId : Nat := 0
  orderId : Nat := 0
  deriving DecidableEq, Repr

/-- The fields of `MsgCancelOrder` (x/dex/types/tx.pb.go:2510-2533, 2977-2994, 5075-5194). -/
def msgCancelOrderFields : List (Field MsgCancelOrder) :=
  [stringField 1 [0xa] (·.orderer) (fun m v => { m with orderer := v }),
   uint64Field 2 [0x10] (·.pairId) (fun m v => { m with pairId := v }),
   uint64Field 3 [0x18] (·.orderId) (fun m v => { m with orderId := v })]

@[inherit_doc msgCancelOrderFields] def msgCancelOrderCodec : Codec MsgCancelOrder := .message msgCancelOrderFields {}

/-- `MsgCancelAllOrders` (x/dex/types/tx.pb.go:1044-1049). -/
structure MsgCancelAllOrders where
  orderer : Bytes := []
  pairIds : List Nat := []
  deriving DecidableEq, Repr

/-- The fields of `MsgCancelAllOrders` (x/dex/types/tx.pb.go:2573-2604, 3005-3023, 5245-5402). -/
def msgCancelAllOrdersFields : List (Field MsgCancelAllOrders) :=
  [stringField 1 [0xa] (·.orderer) (fun m v => { m with orderer := v }),
   packedField 2 [0x12] (·.pairIds) (fun m v => { m with pairIds := v })]

@[inherit_doc msgCancelAllOrdersFields] def msgCancelAllOrdersCodec : Codec MsgCancelAllOrders := .message msgCancelAllOrdersFields {}

/-- `MsgUpdateParams` (x/dex/types/tx.pb.go:1136-1143). -/
structure MsgUpdateParams where
  authority : Bytes := []
  params : Params := {}
  deriving DecidableEq, Repr

/-- The fields of `MsgUpdateParams` (x/dex/types/tx.pb.go:2644-2667, 3034-3047, 5453-5567). -/
def msgUpdateParamsFields : List (Field MsgUpdateParams) :=
  [stringField 1 [0xa] (·.authority) (fun m v => { m with authority := v }),
   valueField 2 [0x12] paramsCodec (·.params) (fun m v => { m with params := v })]

@[inherit_doc msgUpdateParamsFields] def msgUpdateParamsCodec : Codec MsgUpdateParams := .message msgUpdateParamsFields {}

end Verif.Pb

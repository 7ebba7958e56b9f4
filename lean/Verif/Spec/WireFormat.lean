import Verif.Spec.Wire
import Mathlib.Data.Nat.Digits.Defs
/-!
# The wire format of the messages, from the .proto files (C77, C78)

What the protobuf encoding of a message is: its fields in ascending order, each with a tag; a field with the default value is left out, except
an embedded message or custom type that is not nullable.  The lists of fields are those of proto/defund/dex/*.proto.
-/
namespace Verif.Pb
namespace Format

/-- A varint: seven bits per byte, low bits first, the top bit set on all bytes but the last. -/
def leb (v : Nat) : Bytes := if v < 128 then [UInt8.ofNat v] else UInt8.ofNat (v % 128 + 128) :: leb (v / 128)
decreasing_by omega

/-- An integer field. -/
def varF (num v : Nat) : Bytes := if v = 0 then [] else leb (8 * num) ++ leb v
/-- A field of bytes with a length. -/
def lenF (num : Nat) (p : Bytes) : Bytes := leb (8 * num + 2) ++ leb p.length ++ p
/-- A string field. -/
def strF (num : Nat) (s : Bytes) : Bytes := if s = [] then [] else lenF num s
/-- An optional field. -/
def optF {V : Type} (num : Nat) (wire : V → Bytes) : Option V → Bytes
  | none => []
  | some v => lenF num (wire v)
/-- A repeated field of messages. -/
def repF {V : Type} (num : Nat) (wire : V → Bytes) (l : List V) : Bytes := l.flatMap fun v => lenF num (wire v)
/-- A repeated field of integers, packed. -/
def packF (num : Nat) (l : List Nat) : Bytes := if l = [] then [] else lenF num (l.flatMap leb)

/-- The 64 bits of a signed integer. -/
def bits (x : Int) : Nat := (x % 2 ^ 64).toNat
/-- A boolean as an integer. -/
def bit (b : Bool) : Nat := if b then 1 else 0
/-- A number in decimal notation. -/
def decimal (x : Int) : Bytes :=
  (if x < 0 then [45] else []) ++
    (if x = 0 then [48] else (Nat.digits 10 x.natAbs).reverse.map fun d => UInt8.ofNat (48 + d))
/-- A timestamp: seconds and nanoseconds. -/
def time (t : Stamp) : Bytes := varF 1 (bits t.seconds) ++ varF 2 (bits t.nanos)
/-- A duration: whole seconds and the nanoseconds left, both with the sign of the duration. -/
def duration (d : Int) : Bytes := time { seconds := d.tdiv 1000000000, nanos := d.tmod 1000000000 }

end Format

open Format

/-- `cosmos.base.v1beta1.Coin`. -/
def Coin.wire (m : Coin) : Bytes := strF 1 m.denom ++ lenF 2 (decimal m.amount)

/-- `google.protobuf.UInt64Value`. -/
def UInt64Value.wire (m : UInt64Value) : Bytes := varF 1 m.value

/-- `Pair` (proto/defund/dex/dex.proto:15-29). -/
def Pair.wire (m : Pair) : Bytes :=
  varF 1 m.id ++ strF 2 m.baseCoinDenom ++ strF 3 m.quoteCoinDenom ++ strF 4 m.escrowAddress ++ varF 5 m.lastOrderId ++
    optF 6 decimal m.lastPrice ++ varF 7 m.currentBatchId

/-- `Pool` (proto/defund/dex/dex.proto:33-55). -/
def Pool.wire (m : Pool) : Bytes :=
  varF 1 (bits m.typ) ++ varF 2 m.id ++ varF 3 m.pairId ++ strF 4 m.creator ++ strF 5 m.reserveAddress ++ strF 6 m.poolCoinDenom ++
    optF 7 decimal m.minPrice ++ optF 8 decimal m.maxPrice ++ varF 9 m.lastDepositRequestId ++ varF 10 m.lastWithdrawRequestId ++
    varF 11 (bit m.disabled)

/-- `DepositRequest` (proto/defund/dex/dex.proto:58-82). -/
def DepositRequest.wire (m : DepositRequest) : Bytes :=
  varF 1 m.id ++ varF 2 m.poolId ++ varF 3 (bits m.msgHeight) ++ strF 4 m.depositor ++ repF 5 Coin.wire m.depositCoins ++
    repF 6 Coin.wire m.acceptedCoins ++ lenF 7 m.mintedPoolCoin.wire ++ varF 8 (bits m.status)

/-- `WithdrawRequest` (proto/defund/dex/dex.proto:85-106). -/
def WithdrawRequest.wire (m : WithdrawRequest) : Bytes :=
  varF 1 m.id ++ varF 2 m.poolId ++ varF 3 (bits m.msgHeight) ++ strF 4 m.withdrawer ++ lenF 5 m.poolCoin.wire ++
    repF 6 Coin.wire m.withdrawnCoins ++ varF 7 (bits m.status)

/-- `Order` (proto/defund/dex/dex.proto:109-150). -/
def Order.wire (m : Order) : Bytes :=
  varF 1 (bits m.typ) ++ varF 2 m.id ++ varF 3 m.pairId ++ varF 4 (bits m.msgHeight) ++ strF 5 m.orderer ++
    varF 6 (bits m.direction) ++ lenF 7 m.offerCoin.wire ++ lenF 8 m.remainingOfferCoin.wire ++ lenF 9 m.receivedCoin.wire ++
    lenF 10 (decimal m.price) ++ lenF 11 (decimal m.amount) ++ lenF 12 (decimal m.openAmount) ++ varF 13 m.batchId ++
    lenF 14 (time m.expireAt) ++ varF 15 (bits m.status)

/-- `Params` (proto/defund/dex/params.proto:14-62). -/
def Params.wire (m : Params) : Bytes :=
  varF 1 m.batchSize ++ varF 2 m.tickPrecision ++ strF 3 m.feeCollectorAddress ++ strF 4 m.dustCollectorAddress ++
    lenF 5 (decimal m.minInitialPoolCoinSupply) ++ repF 6 Coin.wire m.pairCreationFee ++ repF 7 Coin.wire m.poolCreationFee ++
    lenF 8 (decimal m.minInitialDepositAmount) ++ lenF 9 (decimal m.maxPriceLimitRatio) ++ varF 10 m.maxNumMarketMakingOrderTicks ++
    varF 11 m.maxNumMarketMakingOrdersPerPair ++ lenF 12 (duration m.maxOrderLifespan) ++ lenF 13 (decimal m.swapFeeRate) ++
    lenF 14 (decimal m.withdrawFeeRate) ++ varF 15 m.depositExtraGas ++ varF 16 m.withdrawExtraGas ++ varF 17 m.orderExtraGas ++
    varF 18 m.maxNumActivePoolsPerPair

/-- `NumMMOrdersRecord` (proto/defund/dex/genesis.proto:34-38). -/
def NumMMOrdersRecord.wire (m : NumMMOrdersRecord) : Bytes :=
  strF 1 m.orderer ++ varF 2 m.pairId ++ varF 3 m.numMarketMakingOrders

/-- `GenesisState` (proto/defund/dex/genesis.proto:12-30). -/
def GenesisState.wire (m : GenesisState) : Bytes :=
  lenF 1 m.params.wire ++ varF 2 m.lastPairId ++ varF 3 m.lastPoolId ++ repF 4 Pair.wire m.pairs ++ repF 5 Pool.wire m.pools ++
    repF 6 DepositRequest.wire m.depositRequests ++ repF 7 WithdrawRequest.wire m.withdrawRequests ++ repF 8 Order.wire m.orders ++
    repF 9 NumMMOrdersRecord.wire m.numMarketMakingOrdersRecords

/-- `MsgCreatePair` (proto/defund/dex/tx.proto:55-66). -/
def MsgCreatePair.wire (m : MsgCreatePair) : Bytes :=
  strF 1 m.creator ++ strF 2 m.baseCoinDenom ++ strF 3 m.quoteCoinDenom

/-- `MsgCreatePool` (proto/defund/dex/tx.proto:71-83). -/
def MsgCreatePool.wire (m : MsgCreatePool) : Bytes :=
  strF 1 m.creator ++ varF 2 m.pairId ++ repF 3 Coin.wire m.depositCoins

/-- `MsgCreateRangedPool` (proto/defund/dex/tx.proto:89-110). -/
def MsgCreateRangedPool.wire (m : MsgCreateRangedPool) : Bytes :=
  strF 1 m.creator ++ varF 2 m.pairId ++ repF 3 Coin.wire m.depositCoins ++ lenF 4 (decimal m.minPrice) ++
    lenF 5 (decimal m.maxPrice) ++ lenF 6 (decimal m.initialPrice)

/-- `MsgDeposit` (proto/defund/dex/tx.proto:116-128). -/
def MsgDeposit.wire (m : MsgDeposit) : Bytes :=
  strF 1 m.depositor ++ varF 2 m.poolId ++ repF 3 Coin.wire m.depositCoins

/-- `MsgWithdraw` (proto/defund/dex/tx.proto:134-145). -/
def MsgWithdraw.wire (m : MsgWithdraw) : Bytes :=
  strF 1 m.withdrawer ++ varF 2 m.poolId ++ lenF 3 m.poolCoin.wire

/-- `MsgLimitOrder` (proto/defund/dex/tx.proto:151-177). -/
def MsgLimitOrder.wire (m : MsgLimitOrder) : Bytes :=
  strF 1 m.orderer ++ varF 2 m.pairId ++ varF 3 (bits m.direction) ++ lenF 4 m.offerCoin.wire ++ strF 5 m.demandCoinDenom ++
    lenF 6 (decimal m.price) ++ lenF 7 (decimal m.amount) ++ lenF 8 (duration m.orderLifespan)

/-- `MsgMarketOrder` (proto/defund/dex/tx.proto:183-206). -/
def MsgMarketOrder.wire (m : MsgMarketOrder) : Bytes :=
  strF 1 m.orderer ++ varF 2 m.pairId ++ varF 3 (bits m.direction) ++ lenF 4 m.offerCoin.wire ++ strF 5 m.demandCoinDenom ++
    lenF 6 (decimal m.amount) ++ lenF 7 (duration m.orderLifespan)

/-- `MsgMMOrder` (proto/defund/dex/tx.proto:212-238). -/
def MsgMMOrder.wire (m : MsgMMOrder) : Bytes :=
  strF 1 m.orderer ++ varF 2 m.pairId ++ varF 3 (bits m.direction) ++ lenF 4 m.offerCoin.wire ++ strF 5 m.demandCoinDenom ++
    lenF 6 (decimal m.price) ++ lenF 7 (decimal m.amount) ++ lenF 8 (duration m.orderLifespan)

/-- `MsgCancelOrder` (proto/defund/dex/tx.proto:244-255). -/
def MsgCancelOrder.wire (m : MsgCancelOrder) : Bytes :=
  strF 1 m.orderer ++ varF 2 m.pairId ++ varF 3 m.orderId

/-- `MsgCancelAllOrders` (proto/defund/dex/tx.proto:261-269). -/
def MsgCancelAllOrders.wire (m : MsgCancelAllOrders) : Bytes :=
  strF 1 m.orderer ++ packF 2 m.pairIds

/-- `MsgUpdateParams` (proto/defund/dex/tx.proto:275-289). -/
def MsgUpdateParams.wire (m : MsgUpdateParams) : Bytes :=
  strF 1 m.authority ++ lenF 2 m.params.wire

/-- A field of any message as it appears on the wire: its number and its bytes.  The values are integers, eight bytes, bytes with a length,
four bytes, and groups of fields with a start and an end. -/
inductive Raw : Nat → Bytes → Prop
  | int {num v : Nat} (h : 0 < num ∧ num < 2 ^ 29) (hv : v < 2 ^ 64) : Raw num (leb (8 * num) ++ leb v)
  | eight {num : Nat} {p : Bytes} (h : 0 < num ∧ num < 2 ^ 29) (hp : p.length = 8) : Raw num (leb (8 * num + 1) ++ p)
  | bytes {num : Nat} {p : Bytes} (h : 0 < num ∧ num < 2 ^ 29) (hp : p.length < 2 ^ 63) : Raw num (lenF num p)
  | four {num : Nat} {p : Bytes} (h : 0 < num ∧ num < 2 ^ 29) (hp : p.length = 4) : Raw num (leb (8 * num + 5) ++ p)
  | group {num : Nat} {inner : List (Nat × Bytes)} (h : 0 < num ∧ num < 2 ^ 29) (hi : ∀ f ∈ inner, Raw f.1 f.2) :
      Raw num (leb (8 * num + 3) ++ inner.flatMap (·.2) ++ leb (8 * num + 4))

/-- Two encodings one after the other are read as the first, then the second into the result. -/
def Merges {M : Type} (fs : List (Field M)) : Prop :=
  ∀ (p q : Bytes) (x y z : M), unmarshal fs p x = some y → unmarshal fs q y = some z → unmarshal fs (p ++ q) x = some z

end Verif.Pb

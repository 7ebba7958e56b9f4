import Verif.Proofs.RecordFormat
import Verif.Proofs.Merge
/-!
# Records and messages on the wire (C77, C78, C79)

`X.wire` is the encoding of a message as the .proto files define it (`Verif/Spec/WireFormat.lean`); `X.Fits` says that its numbers fit their
fields (`Verif/Spec/Wire.lean`); `Sent` says that `Marshal` gives these bytes, `Size` their number, and `Unmarshal` the message.
-/
namespace Verif.Props
open Verif.Pb Verif.Pb.Format

/-! ## C77: stored records

The values under the keys of the store: pairs, pools, requests and orders, and the last ids as `UInt64Value`. -/

/-- **C77** `UInt64Value`. -/
theorem C77_uInt64Value {m : Pb.UInt64Value} (h : m.Fits) (hl : m.wire.length < 2 ^ 63) : Sent uInt64ValueFields {} m m.wire :=
  (uInt64Value_runs h).sent (uInt64Value_writes h) hl

/-- **C77** `Coin`. -/
theorem C77_coin {m : Pb.Coin} (h : m.Fits) (hl : m.wire.length < 2 ^ 63) : Sent coinFields {} m m.wire :=
  (coin_runs h).sent (coin_writes h) hl

/-- **C77** `Pair`. -/
theorem C77_pair {m : Pb.Pair} (h : m.Fits) (hl : m.wire.length < 2 ^ 63) : Sent pairFields {} m m.wire :=
  (pair_runs h).sent (pair_writes h) hl

/-- **C77** `Pool`. -/
theorem C77_pool {m : Pb.Pool} (h : m.Fits) (hl : m.wire.length < 2 ^ 63) : Sent poolFields {} m m.wire :=
  (pool_runs h).sent (pool_writes h) hl

/-- **C77** `DepositRequest`. -/
theorem C77_depositRequest {m : Pb.DepositRequest} (h : m.Fits) (hl : m.wire.length < 2 ^ 63) : Sent depositRequestFields {} m m.wire :=
  (depositRequest_runs h).sent (depositRequest_writes h) hl

/-- **C77** `WithdrawRequest`. -/
theorem C77_withdrawRequest {m : Pb.WithdrawRequest} (h : m.Fits) (hl : m.wire.length < 2 ^ 63) : Sent withdrawRequestFields {} m m.wire :=
  (withdrawRequest_runs h).sent (withdrawRequest_writes h) hl

/-- **C77** `Order`. -/
theorem C77_order {m : Pb.Order} (h : m.Fits) (hl : m.wire.length < 2 ^ 63) : Sent orderFields {} m m.wire :=
  (order_runs h).sent (order_writes h) hl

theorem sent_distinct {M : Type} {fs : List (Pb.Field M)} {zero m m' : M} {w w' : Bytes} (h : Sent fs zero m w) (h' : Sent fs zero m' w') (e : w = w') :
    m = m' := by
  subst e
  have := h.unmarshal.symm.trans h'.unmarshal
  cases this; rfl

/-- **C77** Different records have different bytes: nothing is lost in the store. -/
theorem C77_distinct :
    (∀ m m' : Pb.Pair, m.Fits → m'.Fits → m.wire.length < 2 ^ 63 → m.wire = m'.wire → m = m') ∧
    (∀ m m' : Pb.Pool, m.Fits → m'.Fits → m.wire.length < 2 ^ 63 → m.wire = m'.wire → m = m') ∧
    (∀ m m' : Pb.DepositRequest, m.Fits → m'.Fits → m.wire.length < 2 ^ 63 → m.wire = m'.wire → m = m') ∧
    (∀ m m' : Pb.WithdrawRequest, m.Fits → m'.Fits → m.wire.length < 2 ^ 63 → m.wire = m'.wire → m = m') ∧
    (∀ m m' : Pb.Order, m.Fits → m'.Fits → m.wire.length < 2 ^ 63 → m.wire = m'.wire → m = m') :=
  ⟨fun _ _ h h' hl e => sent_distinct (C77_pair h hl) (C77_pair h' (e ▸ hl)) e,
   fun _ _ h h' hl e => sent_distinct (C77_pool h hl) (C77_pool h' (e ▸ hl)) e,
   fun _ _ h h' hl e => sent_distinct (C77_depositRequest h hl) (C77_depositRequest h' (e ▸ hl)) e,
   fun _ _ h h' hl e => sent_distinct (C77_withdrawRequest h hl) (C77_withdrawRequest h' (e ▸ hl)) e,
   fun _ _ h h' hl e => sent_distinct (C77_order h hl) (C77_order h' (e ▸ hl)) e⟩

/-- A pair as it is stored. -/
def aPair : Pb.Pair :=
  { id := 300, baseCoinDenom := [0x62], quoteCoinDenom := [0x71, 0x71], escrowAddress := [0x65], lastOrderId := 7,
    lastPrice := some (-1200000000000000000), currentBatchId := 1 }

/-- An order as it is stored. -/
def anOrder : Pb.Order :=
  { typ := 1, id := 128, pairId := 1, msgHeight := -5, orderer := [0x61], direction := 2,
    offerCoin := { denom := [0x78], amount := 1000 }, remainingOfferCoin := { denom := [0x78], amount := 0 },
    receivedCoin := { denom := [0x79], amount := 2 ^ 255 }, price := 10 ^ 40, amount := 12, openAmount := 0, batchId := 2 ^ 64 - 1,
    expireAt := { seconds := 1700000000, nanos := 5 }, status := 4 }

example : Pb.marshal pairFields aPair = some ([0x08, 0xac, 0x02, 0x12, 1, 0x62, 0x1a, 2, 0x71, 0x71, 0x22, 1, 0x65, 0x28, 7, 0x32, 20, 45]
    ++ [49, 50] ++ List.replicate 17 48 ++ [0x38, 1]) := by decide +kernel
example : aPair.Fits := ⟨by decide, by decide, fun v e => by cases e; decide, by decide⟩
example : anOrder.Fits :=
  ⟨by decide, by decide, by decide, by decide, by decide, ⟨by decide⟩, ⟨by decide⟩, ⟨by decide +kernel⟩, by decide +kernel, by decide, by decide, by decide +kernel,
    by decide, by decide⟩
example : ((Pb.marshal orderFields anOrder).any fun w => decide (w.length = 199 ∧ Pb.unmarshal orderFields w {} = some anOrder)) = true := by
  decide +kernel

/-- **C77** The bounds are needed: an amount of more than 256 bits is written but cannot be read back, and an expiry beyond the year 9999
cannot be written. -/
theorem C77_beyond_bounds :
    ((Pb.marshal coinFields { denom := [0x78], amount := 2 ^ 256 }).any fun w => decide (Pb.unmarshal coinFields w {} = none)) = true ∧
      Pb.marshal orderFields { anOrder with expireAt := { seconds := 253402300800 } } = none := by
  constructor <;> decide +kernel


/-! ## C78: transactions, parameters and genesis -/

/-- **C78** `Params`. -/
theorem C78_params {m : Pb.Params} (h : m.Fits) (hl : m.wire.length < 2 ^ 63) : Sent paramsFields {} m m.wire :=
  (params_runs h).sent (params_writes h) hl

/-- **C78** `NumMMOrdersRecord`. -/
theorem C78_numMMOrdersRecord {m : Pb.NumMMOrdersRecord} (h : m.Fits) (hl : m.wire.length < 2 ^ 63) : Sent numMMOrdersRecordFields {} m m.wire :=
  (numMMOrdersRecord_runs h).sent (numMMOrdersRecord_writes h) hl

/-- **C78** `GenesisState`. -/
theorem C78_genesisState {m : Pb.GenesisState} (h : m.Fits) (hl : m.wire.length < 2 ^ 63) : Sent genesisStateFields {} m m.wire :=
  (genesisState_runs h).sent (genesisState_writes h) hl

/-- **C78** `MsgCreatePair`. -/
theorem C78_msgCreatePair {m : Pb.MsgCreatePair} (h : m.Fits) (hl : m.wire.length < 2 ^ 63) : Sent msgCreatePairFields {} m m.wire :=
  (msgCreatePair_runs h).sent (msgCreatePair_writes h) hl

/-- **C78** `MsgCreatePool`. -/
theorem C78_msgCreatePool {m : Pb.MsgCreatePool} (h : m.Fits) (hl : m.wire.length < 2 ^ 63) : Sent msgCreatePoolFields {} m m.wire :=
  (msgCreatePool_runs h).sent (msgCreatePool_writes h) hl

/-- **C78** `MsgCreateRangedPool`. -/
theorem C78_msgCreateRangedPool {m : Pb.MsgCreateRangedPool} (h : m.Fits) (hl : m.wire.length < 2 ^ 63) : Sent msgCreateRangedPoolFields {} m m.wire :=
  (msgCreateRangedPool_runs h).sent (msgCreateRangedPool_writes h) hl

/-- **C78** `MsgDeposit`. -/
theorem C78_msgDeposit {m : Pb.MsgDeposit} (h : m.Fits) (hl : m.wire.length < 2 ^ 63) : Sent msgDepositFields {} m m.wire :=
  (msgDeposit_runs h).sent (msgDeposit_writes h) hl

/-- **C78** `MsgWithdraw`. -/
theorem C78_msgWithdraw {m : Pb.MsgWithdraw} (h : m.Fits) (hl : m.wire.length < 2 ^ 63) : Sent msgWithdrawFields {} m m.wire :=
  (msgWithdraw_runs h).sent (msgWithdraw_writes h) hl

/-- **C78** `MsgLimitOrder`. -/
theorem C78_msgLimitOrder {m : Pb.MsgLimitOrder} (h : m.Fits) (hl : m.wire.length < 2 ^ 63) : Sent msgLimitOrderFields {} m m.wire :=
  (msgLimitOrder_runs h).sent (msgLimitOrder_writes h) hl

/-- **C78** `MsgMarketOrder`. -/
theorem C78_msgMarketOrder {m : Pb.MsgMarketOrder} (h : m.Fits) (hl : m.wire.length < 2 ^ 63) : Sent msgMarketOrderFields {} m m.wire :=
  (msgMarketOrder_runs h).sent (msgMarketOrder_writes h) hl

/-- **C78** `MsgMMOrder`. -/
theorem C78_msgMMOrder {m : Pb.MsgMMOrder} (h : m.Fits) (hl : m.wire.length < 2 ^ 63) : Sent msgMMOrderFields {} m m.wire :=
  (msgMMOrder_runs h).sent (msgMMOrder_writes h) hl

/-- **C78** `MsgCancelOrder`. -/
theorem C78_msgCancelOrder {m : Pb.MsgCancelOrder} (h : m.Fits) (hl : m.wire.length < 2 ^ 63) : Sent msgCancelOrderFields {} m m.wire :=
  (msgCancelOrder_runs h).sent (msgCancelOrder_writes h) hl

/-- **C78** `MsgCancelAllOrders`. -/
theorem C78_msgCancelAllOrders {m : Pb.MsgCancelAllOrders} (h : m.Fits) (hl : m.wire.length < 2 ^ 63) : Sent msgCancelAllOrdersFields {} m m.wire :=
  (msgCancelAllOrders_runs h).sent (msgCancelAllOrders_writes h) hl

/-- **C78** `MsgUpdateParams`. -/
theorem C78_msgUpdateParams {m : Pb.MsgUpdateParams} (h : m.Fits) (hl : m.wire.length < 2 ^ 63) : Sent msgUpdateParamsFields {} m m.wire :=
  (msgUpdateParams_runs h).sent (msgUpdateParams_writes h) hl

/-- A limit order message. -/
def aLimit : Pb.MsgLimitOrder :=
  { orderer := [0x61], pairId := 1, direction := 1, offerCoin := { denom := [0x78], amount := 1000 },
    demandCoinDenom := [0x79], price := 10 ^ 18, amount := 1000, orderLifespan := -1500000000 }

example : aLimit.Fits := ⟨by decide, by decide, ⟨by decide⟩, by decide, by decide, by decide⟩
example : ((Pb.marshal msgLimitOrderFields aLimit).any fun w => decide (Pb.unmarshal msgLimitOrderFields w {} = some aLimit)) = true := by
  decide +kernel
/-- The cancel-all message with pair ids 1, 300 and 2: packed. -/
example : Pb.marshal msgCancelAllOrdersFields { orderer := [0x61], pairIds := [1, 300, 2] } = some [0x0a, 1, 0x61, 0x12, 4, 1, 0xac, 2, 2] := by
  decide +kernel

/-! ## C79: unknown fields and concatenation -/

/-- **C79** A field with a number the message does not have is skipped, whatever its type, and changes nothing. -/
theorem C79_unknown_skipped {M : Type} (fs : List (Pb.Field M)) {num : Nat} {u : Bytes} (h : Raw num u) (hf : ∀ f ∈ fs, f.num ≠ num) (x : M) :
    unmarshal fs u x = some x :=
  unknown_read h hf x

/-- **C79** Two encodings one after the other are read one after the other, for every message. -/
theorem C79_concatenation :
    Merges coinFields ∧
    Merges uInt64ValueFields ∧
    Merges pairFields ∧
    Merges poolFields ∧
    Merges depositRequestFields ∧
    Merges withdrawRequestFields ∧
    Merges orderFields ∧
    Merges paramsFields ∧
    Merges numMMOrdersRecordFields ∧
    Merges genesisStateFields ∧
    Merges msgCreatePairFields ∧
    Merges msgCreatePoolFields ∧
    Merges msgCreateRangedPoolFields ∧
    Merges msgDepositFields ∧
    Merges msgWithdrawFields ∧
    Merges msgLimitOrderFields ∧
    Merges msgMarketOrderFields ∧
    Merges msgMMOrderFields ∧
    Merges msgCancelOrderFields ∧
    Merges msgCancelAllOrdersFields ∧
    Merges msgUpdateParamsFields := by
  refine ⟨?_, ?_, ?_, ?_, ?_, ?_, ?_, ?_, ?_, ?_, ?_, ?_, ?_, ?_, ?_, ?_, ?_, ?_, ?_, ?_, ?_⟩ <;> apply merges_of_stable
  all_goals
    simp only [coinFields, uInt64ValueFields, pairFields, poolFields, depositRequestFields, withdrawRequestFields, orderFields, paramsFields,
      numMMOrdersRecordFields, genesisStateFields, msgCreatePairFields, msgCreatePoolFields, msgCreateRangedPoolFields, msgDepositFields,
      msgWithdrawFields, msgLimitOrderFields, msgMarketOrderFields, msgMMOrderFields, msgCancelOrderFields, msgCancelAllOrdersFields,
      msgUpdateParamsFields, List.forall_mem_cons]
    all_goals repeat' apply And.intro
    all_goals first
      | exact num_stable
      | exact string_stable
      | exact value_stable
      | exact pointer_stable
      | exact repeated_stable
      | exact packed_stable
      | exact fun _ h => absurd h List.not_mem_nil

/-- **C79** So an unknown field may stand anywhere between the fields of a message: a pair, for example. -/
theorem C79_unknown_between {p q u : Bytes} {x y : Pb.Pair} {num : Nat} (hp : unmarshal pairFields p {} = some x)
    (hq : unmarshal pairFields q x = some y) (hu : Raw num u) (hn : 7 < num) : unmarshal pairFields (p ++ u ++ q) {} = some y := by
  have hm : Merges pairFields := C79_concatenation.2.2.1
  have hf : ∀ f ∈ pairFields, f.num ≠ num := by
    intro f hf
    have : f.num ≤ 7 := by
      have : ∀ f ∈ pairFields, f.num ≤ 7 := by
        simp only [pairFields, List.forall_mem_cons]
        refine ⟨?_, ?_, ?_, ?_, ?_, ?_, ?_, fun _ h => absurd h List.not_mem_nil⟩ <;> decide
      exact this f hf
    omega
  exact hm _ _ _ _ _ (hm _ _ _ _ _ hp (C79_unknown_skipped pairFields hu hf x)) hq

/-- A group with two fields in it is such an unknown field; a pair with it in the middle is read as without it. -/
example : Raw 9 (leb 75 ++ [(1, leb 8 ++ leb 300), (2, lenF 2 [1, 2, 3])].flatMap (·.2) ++ leb 76) :=
  .group (by norm_num) (by
    simp only [List.forall_mem_cons]
    exact ⟨.int (by norm_num) (by norm_num), .bytes (by norm_num) (by decide), fun _ h => absurd h List.not_mem_nil⟩)
example : Pb.unmarshal pairFields ([0x08, 5] ++ [75, 8, 0xac, 2, 18, 3, 1, 2, 3, 76] ++ [0x28, 7]) {} = some { id := 5, lastOrderId := 7 } := by
  decide +kernel
/-- The field of a later occurrence replaces that of an earlier one. -/
example : Pb.unmarshal pairFields ([0x08, 5] ++ [0x08, 6]) {} = some { id := 6 } := by decide +kernel

end Verif.Props

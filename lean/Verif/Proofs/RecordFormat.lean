import Verif.Proofs.Format
import Verif.Proofs.Records
/-! # Every message is written in the wire format (C77, C78) -/
namespace Verif.Pb
open Format

theorem coin_writes {m : Coin} (h : m.Fits) : WritesAll coinFields m m.wire := by
  unfold Coin.wire
  refine .cons (string_writes rfl (by norm_num)) ?_
  exact .last (value_writes rfl (by norm_num) number_writes)

theorem uInt64Value_writes {m : UInt64Value} (h : m.Fits) : WritesAll uInt64ValueFields m m.wire := by
  unfold UInt64Value.wire
  exact .last (num_writes rfl (by norm_num) rfl h.value Iff.rfl)

theorem pair_writes {m : Pair} (h : m.Fits) : WritesAll pairFields m m.wire := by
  unfold Pair.wire
  simp only [List.append_assoc]
  refine .cons (num_writes rfl (by norm_num) rfl h.id Iff.rfl) ?_
  refine .cons (string_writes rfl (by norm_num)) ?_
  refine .cons (string_writes rfl (by norm_num)) ?_
  refine .cons (string_writes rfl (by norm_num)) ?_
  refine .cons (num_writes rfl (by norm_num) rfl h.lastOrderId Iff.rfl) ?_
  refine .cons (pointer_writes rfl (by norm_num) (fun _ _ => number_writes)) ?_
  exact .last (num_writes rfl (by norm_num) rfl h.currentBatchId Iff.rfl)

theorem pool_writes {m : Pool} (h : m.Fits) : WritesAll poolFields m m.wire := by
  unfold Pool.wire
  simp only [List.append_assoc]
  refine .cons (num_writes rfl (by norm_num) (toUint64_bits _) (bits_lt _) (bits_zero32 h.typ)) ?_
  refine .cons (num_writes rfl (by norm_num) rfl h.id Iff.rfl) ?_
  refine .cons (num_writes rfl (by norm_num) rfl h.pairId Iff.rfl) ?_
  refine .cons (string_writes rfl (by norm_num)) ?_
  refine .cons (string_writes rfl (by norm_num)) ?_
  refine .cons (string_writes rfl (by norm_num)) ?_
  refine .cons (pointer_writes rfl (by norm_num) (fun _ _ => number_writes)) ?_
  refine .cons (pointer_writes rfl (by norm_num) (fun _ _ => number_writes)) ?_
  refine .cons (num_writes rfl (by norm_num) rfl h.lastDepositRequestId Iff.rfl) ?_
  refine .cons (num_writes rfl (by norm_num) rfl h.lastWithdrawRequestId Iff.rfl) ?_
  exact .last (num_writes rfl (by norm_num) (bit_toNat _) (bit_lt _) (bit_zero _))

theorem depositRequest_writes {m : DepositRequest} (h : m.Fits) : WritesAll depositRequestFields m m.wire := by
  unfold DepositRequest.wire
  simp only [List.append_assoc]
  refine .cons (num_writes rfl (by norm_num) rfl h.id Iff.rfl) ?_
  refine .cons (num_writes rfl (by norm_num) rfl h.poolId Iff.rfl) ?_
  refine .cons (num_writes rfl (by norm_num) (toUint64_bits _) (bits_lt _) (bits_zero h.msgHeight)) ?_
  refine .cons (string_writes rfl (by norm_num)) ?_
  refine .cons (repeated_writes rfl (by norm_num) (fun v hv => (coin_writes (h.depositCoins v hv)).codec)) ?_
  refine .cons (repeated_writes rfl (by norm_num) (fun v hv => (coin_writes (h.acceptedCoins v hv)).codec)) ?_
  refine .cons (value_writes rfl (by norm_num) (coin_writes h.mintedPoolCoin).codec) ?_
  exact .last (num_writes rfl (by norm_num) (toUint64_bits _) (bits_lt _) (bits_zero32 h.status))

theorem withdrawRequest_writes {m : WithdrawRequest} (h : m.Fits) : WritesAll withdrawRequestFields m m.wire := by
  unfold WithdrawRequest.wire
  simp only [List.append_assoc]
  refine .cons (num_writes rfl (by norm_num) rfl h.id Iff.rfl) ?_
  refine .cons (num_writes rfl (by norm_num) rfl h.poolId Iff.rfl) ?_
  refine .cons (num_writes rfl (by norm_num) (toUint64_bits _) (bits_lt _) (bits_zero h.msgHeight)) ?_
  refine .cons (string_writes rfl (by norm_num)) ?_
  refine .cons (value_writes rfl (by norm_num) (coin_writes h.poolCoin).codec) ?_
  refine .cons (repeated_writes rfl (by norm_num) (fun v hv => (coin_writes (h.withdrawnCoins v hv)).codec)) ?_
  exact .last (num_writes rfl (by norm_num) (toUint64_bits _) (bits_lt _) (bits_zero32 h.status))

theorem order_writes {m : Order} (h : m.Fits) : WritesAll orderFields m m.wire := by
  unfold Order.wire
  simp only [List.append_assoc]
  refine .cons (num_writes rfl (by norm_num) (toUint64_bits _) (bits_lt _) (bits_zero32 h.typ)) ?_
  refine .cons (num_writes rfl (by norm_num) rfl h.id Iff.rfl) ?_
  refine .cons (num_writes rfl (by norm_num) rfl h.pairId Iff.rfl) ?_
  refine .cons (num_writes rfl (by norm_num) (toUint64_bits _) (bits_lt _) (bits_zero h.msgHeight)) ?_
  refine .cons (string_writes rfl (by norm_num)) ?_
  refine .cons (num_writes rfl (by norm_num) (toUint64_bits _) (bits_lt _) (bits_zero32 h.direction)) ?_
  refine .cons (value_writes rfl (by norm_num) (coin_writes h.offerCoin).codec) ?_
  refine .cons (value_writes rfl (by norm_num) (coin_writes h.remainingOfferCoin).codec) ?_
  refine .cons (value_writes rfl (by norm_num) (coin_writes h.receivedCoin).codec) ?_
  refine .cons (value_writes rfl (by norm_num) number_writes) ?_
  refine .cons (value_writes rfl (by norm_num) number_writes) ?_
  refine .cons (value_writes rfl (by norm_num) number_writes) ?_
  refine .cons (num_writes rfl (by norm_num) rfl h.batchId Iff.rfl) ?_
  refine .cons (value_writes rfl (by norm_num) (time_writes (decide_eq_true h.expireAt))) ?_
  exact .last (num_writes rfl (by norm_num) (toUint64_bits _) (bits_lt _) (bits_zero32 h.status))

theorem params_writes {m : Params} (h : m.Fits) : WritesAll paramsFields m m.wire := by
  unfold Params.wire
  simp only [List.append_assoc]
  refine .cons (num_writes rfl (by norm_num) rfl (lt32 h.batchSize) Iff.rfl) ?_
  refine .cons (num_writes rfl (by norm_num) rfl (lt32 h.tickPrecision) Iff.rfl) ?_
  refine .cons (string_writes rfl (by norm_num)) ?_
  refine .cons (string_writes rfl (by norm_num)) ?_
  refine .cons (value_writes rfl (by norm_num) number_writes) ?_
  refine .cons (repeated_writes rfl (by norm_num) (fun v hv => (coin_writes (h.pairCreationFee v hv)).codec)) ?_
  refine .cons (repeated_writes rfl (by norm_num) (fun v hv => (coin_writes (h.poolCreationFee v hv)).codec)) ?_
  refine .cons (value_writes rfl (by norm_num) number_writes) ?_
  refine .cons (value_writes rfl (by norm_num) number_writes) ?_
  refine .cons (num_writes rfl (by norm_num) rfl (lt32 h.maxNumMarketMakingOrderTicks) Iff.rfl) ?_
  refine .cons (num_writes rfl (by norm_num) rfl (lt32 h.maxNumMarketMakingOrdersPerPair) Iff.rfl) ?_
  refine .cons (value_writes rfl (by norm_num) (duration_writes h.maxOrderLifespan)) ?_
  refine .cons (value_writes rfl (by norm_num) number_writes) ?_
  refine .cons (value_writes rfl (by norm_num) number_writes) ?_
  refine .cons (num_writes rfl (by norm_num) rfl h.depositExtraGas Iff.rfl) ?_
  refine .cons (num_writes rfl (by norm_num) rfl h.withdrawExtraGas Iff.rfl) ?_
  refine .cons (num_writes rfl (by norm_num) rfl h.orderExtraGas Iff.rfl) ?_
  exact .last (num_writes rfl (by norm_num) rfl (lt32 h.maxNumActivePoolsPerPair) Iff.rfl)

theorem numMMOrdersRecord_writes {m : NumMMOrdersRecord} (h : m.Fits) : WritesAll numMMOrdersRecordFields m m.wire := by
  unfold NumMMOrdersRecord.wire
  simp only [List.append_assoc]
  refine .cons (string_writes rfl (by norm_num)) ?_
  refine .cons (num_writes rfl (by norm_num) rfl h.pairId Iff.rfl) ?_
  exact .last (num_writes rfl (by norm_num) rfl (lt32 h.numMarketMakingOrders) Iff.rfl)

theorem genesisState_writes {m : GenesisState} (h : m.Fits) : WritesAll genesisStateFields m m.wire := by
  unfold GenesisState.wire
  simp only [List.append_assoc]
  refine .cons (value_writes rfl (by norm_num) (params_writes h.params).codec) ?_
  refine .cons (num_writes rfl (by norm_num) rfl h.lastPairId Iff.rfl) ?_
  refine .cons (num_writes rfl (by norm_num) rfl h.lastPoolId Iff.rfl) ?_
  refine .cons (repeated_writes rfl (by norm_num) (fun v hv => (pair_writes (h.pairs v hv)).codec)) ?_
  refine .cons (repeated_writes rfl (by norm_num) (fun v hv => (pool_writes (h.pools v hv)).codec)) ?_
  refine .cons (repeated_writes rfl (by norm_num) (fun v hv => (depositRequest_writes (h.depositRequests v hv)).codec)) ?_
  refine .cons (repeated_writes rfl (by norm_num) (fun v hv => (withdrawRequest_writes (h.withdrawRequests v hv)).codec)) ?_
  refine .cons (repeated_writes rfl (by norm_num) (fun v hv => (order_writes (h.orders v hv)).codec)) ?_
  exact .last (repeated_writes rfl (by norm_num) (fun v hv => (numMMOrdersRecord_writes (h.numMarketMakingOrdersRecords v hv)).codec))

theorem msgCreatePair_writes {m : MsgCreatePair} (h : m.Fits) : WritesAll msgCreatePairFields m m.wire := by
  unfold MsgCreatePair.wire
  simp only [List.append_assoc]
  refine .cons (string_writes rfl (by norm_num)) ?_
  refine .cons (string_writes rfl (by norm_num)) ?_
  exact .last (string_writes rfl (by norm_num))

theorem msgCreatePool_writes {m : MsgCreatePool} (h : m.Fits) : WritesAll msgCreatePoolFields m m.wire := by
  unfold MsgCreatePool.wire
  simp only [List.append_assoc]
  refine .cons (string_writes rfl (by norm_num)) ?_
  refine .cons (num_writes rfl (by norm_num) rfl h.pairId Iff.rfl) ?_
  exact .last (repeated_writes rfl (by norm_num) (fun v hv => (coin_writes (h.depositCoins v hv)).codec))

theorem msgCreateRangedPool_writes {m : MsgCreateRangedPool} (h : m.Fits) : WritesAll msgCreateRangedPoolFields m m.wire := by
  unfold MsgCreateRangedPool.wire
  simp only [List.append_assoc]
  refine .cons (string_writes rfl (by norm_num)) ?_
  refine .cons (num_writes rfl (by norm_num) rfl h.pairId Iff.rfl) ?_
  refine .cons (repeated_writes rfl (by norm_num) (fun v hv => (coin_writes (h.depositCoins v hv)).codec)) ?_
  refine .cons (value_writes rfl (by norm_num) number_writes) ?_
  refine .cons (value_writes rfl (by norm_num) number_writes) ?_
  exact .last (value_writes rfl (by norm_num) number_writes)

theorem msgDeposit_writes {m : MsgDeposit} (h : m.Fits) : WritesAll msgDepositFields m m.wire := by
  unfold MsgDeposit.wire
  simp only [List.append_assoc]
  refine .cons (string_writes rfl (by norm_num)) ?_
  refine .cons (num_writes rfl (by norm_num) rfl h.poolId Iff.rfl) ?_
  exact .last (repeated_writes rfl (by norm_num) (fun v hv => (coin_writes (h.depositCoins v hv)).codec))

theorem msgWithdraw_writes {m : MsgWithdraw} (h : m.Fits) : WritesAll msgWithdrawFields m m.wire := by
  unfold MsgWithdraw.wire
  simp only [List.append_assoc]
  refine .cons (string_writes rfl (by norm_num)) ?_
  refine .cons (num_writes rfl (by norm_num) rfl h.poolId Iff.rfl) ?_
  exact .last (value_writes rfl (by norm_num) (coin_writes h.poolCoin).codec)

theorem msgLimitOrder_writes {m : MsgLimitOrder} (h : m.Fits) : WritesAll msgLimitOrderFields m m.wire := by
  unfold MsgLimitOrder.wire
  simp only [List.append_assoc]
  refine .cons (string_writes rfl (by norm_num)) ?_
  refine .cons (num_writes rfl (by norm_num) rfl h.pairId Iff.rfl) ?_
  refine .cons (num_writes rfl (by norm_num) (toUint64_bits _) (bits_lt _) (bits_zero32 h.direction)) ?_
  refine .cons (value_writes rfl (by norm_num) (coin_writes h.offerCoin).codec) ?_
  refine .cons (string_writes rfl (by norm_num)) ?_
  refine .cons (value_writes rfl (by norm_num) number_writes) ?_
  refine .cons (value_writes rfl (by norm_num) number_writes) ?_
  exact .last (value_writes rfl (by norm_num) (duration_writes h.orderLifespan))

theorem msgMarketOrder_writes {m : MsgMarketOrder} (h : m.Fits) : WritesAll msgMarketOrderFields m m.wire := by
  unfold MsgMarketOrder.wire
  simp only [List.append_assoc]
  refine .cons (string_writes rfl (by norm_num)) ?_
  refine .cons (num_writes rfl (by norm_num) rfl h.pairId Iff.rfl) ?_
  refine .cons (num_writes rfl (by norm_num) (toUint64_bits _) (bits_lt _) (bits_zero32 h.direction)) ?_
  refine .cons (value_writes rfl (by norm_num) (coin_writes h.offerCoin).codec) ?_
  refine .cons (string_writes rfl (by norm_num)) ?_
  refine .cons (value_writes rfl (by norm_num) number_writes) ?_
  exact .last (value_writes rfl (by norm_num) (duration_writes h.orderLifespan))

theorem msgMMOrder_writes {m : MsgMMOrder} (h : m.Fits) : WritesAll msgMMOrderFields m m.wire := by
  unfold MsgMMOrder.wire
  simp only [List.append_assoc]
  refine .cons (string_writes rfl (by norm_num)) ?_
  refine .cons (num_writes rfl (by norm_num) rfl h.pairId Iff.rfl) ?_
  refine .cons (num_writes rfl (by norm_num) (toUint64_bits _) (bits_lt _) (bits_zero32 h.direction)) ?_
  refine .cons (value_writes rfl (by norm_num) (coin_writes h.offerCoin).codec) ?_
  refine .cons (string_writes rfl (by norm_num)) ?_
  refine .cons (value_writes rfl (by norm_num) number_writes) ?_
  refine .cons (value_writes rfl (by norm_num) number_writes) ?_
  exact .last (value_writes rfl (by norm_num) (duration_writes h.orderLifespan))

theorem msgCancelOrder_writes {m : MsgCancelOrder} (h : m.Fits) : WritesAll msgCancelOrderFields m m.wire := by
  unfold MsgCancelOrder.wire
  simp only [List.append_assoc]
  refine .cons (string_writes rfl (by norm_num)) ?_
  refine .cons (num_writes rfl (by norm_num) rfl h.pairId Iff.rfl) ?_
  exact .last (num_writes rfl (by norm_num) rfl h.orderId Iff.rfl)

theorem msgCancelAllOrders_writes {m : MsgCancelAllOrders} (h : m.Fits) : WritesAll msgCancelAllOrdersFields m m.wire := by
  unfold MsgCancelAllOrders.wire
  refine .cons (string_writes rfl (by norm_num)) ?_
  exact .last (packed_writes rfl (by norm_num) h.pairIds)

theorem msgUpdateParams_writes {m : MsgUpdateParams} (h : m.Fits) : WritesAll msgUpdateParamsFields m m.wire := by
  unfold MsgUpdateParams.wire
  refine .cons (string_writes rfl (by norm_num)) ?_
  exact .last (value_writes rfl (by norm_num) (params_writes h.params).codec)

end Verif.Pb

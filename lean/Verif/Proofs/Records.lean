import Verif.Proofs.Proto
import Verif.Spec.Wire
/-! # The fields of every message are written and read back (C77, C78) -/
namespace Verif.Pb

theorem coin_runs {m : Coin} (h : m.Fits) : Runs coinFields coinFields m {} m :=
  .cons (string_copies (tag1 0x0a 1 2 rfl (by decide) (by decide) (by decide)) rfl rfl) <|
  .cons (value_copies (tag1 0x12 2 2 rfl (by decide) (by decide) (by decide)) rfl (number_codec h.amount) rfl) <|
  .nil

theorem uInt64Value_runs {m : UInt64Value} (h : m.Fits) : Runs uInt64ValueFields uInt64ValueFields m {} m :=
  .cons (num_copies (tag1 0x8 1 0 rfl (by decide) (by decide) (by decide)) rfl h.value rfl rfl) <|
  .nil

theorem pair_runs {m : Pair} (h : m.Fits) : Runs pairFields pairFields m {} m :=
  .cons (num_copies (tag1 0x8 1 0 rfl (by decide) (by decide) (by decide)) rfl h.id rfl rfl) <|
  .cons (string_copies (tag1 0x12 2 2 rfl (by decide) (by decide) (by decide)) rfl rfl) <|
  .cons (string_copies (tag1 0x1a 3 2 rfl (by decide) (by decide) (by decide)) rfl rfl) <|
  .cons (string_copies (tag1 0x22 4 2 rfl (by decide) (by decide) (by decide)) rfl rfl) <|
  .cons (num_copies (tag1 0x28 5 0 rfl (by decide) (by decide) (by decide)) rfl h.lastOrderId rfl rfl) <|
  .cons (pointer_copies (tag1 0x32 6 2 rfl (by decide) (by decide) (by decide)) rfl (fun v e => number_codec (h.lastPrice v e)) rfl) <|
  .cons (num_copies (tag1 0x38 7 0 rfl (by decide) (by decide) (by decide)) rfl h.currentBatchId rfl rfl) <|
  .nil

theorem pool_runs {m : Pool} (h : m.Fits) : Runs poolFields poolFields m {} m :=
  .cons (num_copies (tag1 0x8 1 0 rfl (by decide) (by decide) (by decide)) rfl (toInt32_toUint64 h.typ).2 (toInt32_toUint64 h.typ).1 rfl) <|
  .cons (num_copies (tag1 0x10 2 0 rfl (by decide) (by decide) (by decide)) rfl h.id rfl rfl) <|
  .cons (num_copies (tag1 0x18 3 0 rfl (by decide) (by decide) (by decide)) rfl h.pairId rfl rfl) <|
  .cons (string_copies (tag1 0x22 4 2 rfl (by decide) (by decide) (by decide)) rfl rfl) <|
  .cons (string_copies (tag1 0x2a 5 2 rfl (by decide) (by decide) (by decide)) rfl rfl) <|
  .cons (string_copies (tag1 0x32 6 2 rfl (by decide) (by decide) (by decide)) rfl rfl) <|
  .cons (pointer_copies (tag1 0x3a 7 2 rfl (by decide) (by decide) (by decide)) rfl (fun v e => number_codec (h.minPrice v e)) rfl) <|
  .cons (pointer_copies (tag1 0x42 8 2 rfl (by decide) (by decide) (by decide)) rfl (fun v e => number_codec (h.maxPrice v e)) rfl) <|
  .cons (num_copies (tag1 0x48 9 0 rfl (by decide) (by decide) (by decide)) rfl h.lastDepositRequestId rfl rfl) <|
  .cons (num_copies (tag1 0x50 10 0 rfl (by decide) (by decide) (by decide)) rfl h.lastWithdrawRequestId rfl rfl) <|
  .cons (num_copies (tag1 0x58 11 0 rfl (by decide) (by decide) (by decide)) rfl (bool64 _).1 (bool64 _).2 rfl) <|
  .nil

theorem depositRequest_runs {m : DepositRequest} (h : m.Fits) : Runs depositRequestFields depositRequestFields m {} m :=
  .cons (num_copies (tag1 0x8 1 0 rfl (by decide) (by decide) (by decide)) rfl h.id rfl rfl) <|
  .cons (num_copies (tag1 0x10 2 0 rfl (by decide) (by decide) (by decide)) rfl h.poolId rfl rfl) <|
  .cons (num_copies (tag1 0x18 3 0 rfl (by decide) (by decide) (by decide)) rfl (toInt64_toUint64 h.msgHeight).2 (toInt64_toUint64 h.msgHeight).1 rfl) <|
  .cons (string_copies (tag1 0x22 4 2 rfl (by decide) (by decide) (by decide)) rfl rfl) <|
  .cons (repeated_copies (tag1 0x2a 5 2 rfl (by decide) (by decide) (by decide)) rfl (fun _ _ => rfl) (fun _ _ _ => rfl) (fun v hv => (coin_runs (h.depositCoins v hv)).codec) rfl) <|
  .cons (repeated_copies (tag1 0x32 6 2 rfl (by decide) (by decide) (by decide)) rfl (fun _ _ => rfl) (fun _ _ _ => rfl) (fun v hv => (coin_runs (h.acceptedCoins v hv)).codec) rfl) <|
  .cons (value_copies (tag1 0x3a 7 2 rfl (by decide) (by decide) (by decide)) rfl (coin_runs h.mintedPoolCoin).codec rfl) <|
  .cons (num_copies (tag1 0x40 8 0 rfl (by decide) (by decide) (by decide)) rfl (toInt32_toUint64 h.status).2 (toInt32_toUint64 h.status).1 rfl) <|
  .nil

theorem withdrawRequest_runs {m : WithdrawRequest} (h : m.Fits) : Runs withdrawRequestFields withdrawRequestFields m {} m :=
  .cons (num_copies (tag1 0x8 1 0 rfl (by decide) (by decide) (by decide)) rfl h.id rfl rfl) <|
  .cons (num_copies (tag1 0x10 2 0 rfl (by decide) (by decide) (by decide)) rfl h.poolId rfl rfl) <|
  .cons (num_copies (tag1 0x18 3 0 rfl (by decide) (by decide) (by decide)) rfl (toInt64_toUint64 h.msgHeight).2 (toInt64_toUint64 h.msgHeight).1 rfl) <|
  .cons (string_copies (tag1 0x22 4 2 rfl (by decide) (by decide) (by decide)) rfl rfl) <|
  .cons (value_copies (tag1 0x2a 5 2 rfl (by decide) (by decide) (by decide)) rfl (coin_runs h.poolCoin).codec rfl) <|
  .cons (repeated_copies (tag1 0x32 6 2 rfl (by decide) (by decide) (by decide)) rfl (fun _ _ => rfl) (fun _ _ _ => rfl) (fun v hv => (coin_runs (h.withdrawnCoins v hv)).codec) rfl) <|
  .cons (num_copies (tag1 0x38 7 0 rfl (by decide) (by decide) (by decide)) rfl (toInt32_toUint64 h.status).2 (toInt32_toUint64 h.status).1 rfl) <|
  .nil

theorem order_runs {m : Order} (h : m.Fits) : Runs orderFields orderFields m {} m :=
  .cons (num_copies (tag1 0x8 1 0 rfl (by decide) (by decide) (by decide)) rfl (toInt32_toUint64 h.typ).2 (toInt32_toUint64 h.typ).1 rfl) <|
  .cons (num_copies (tag1 0x10 2 0 rfl (by decide) (by decide) (by decide)) rfl h.id rfl rfl) <|
  .cons (num_copies (tag1 0x18 3 0 rfl (by decide) (by decide) (by decide)) rfl h.pairId rfl rfl) <|
  .cons (num_copies (tag1 0x20 4 0 rfl (by decide) (by decide) (by decide)) rfl (toInt64_toUint64 h.msgHeight).2 (toInt64_toUint64 h.msgHeight).1 rfl) <|
  .cons (string_copies (tag1 0x2a 5 2 rfl (by decide) (by decide) (by decide)) rfl rfl) <|
  .cons (num_copies (tag1 0x30 6 0 rfl (by decide) (by decide) (by decide)) rfl (toInt32_toUint64 h.direction).2 (toInt32_toUint64 h.direction).1 rfl) <|
  .cons (value_copies (tag1 0x3a 7 2 rfl (by decide) (by decide) (by decide)) rfl (coin_runs h.offerCoin).codec rfl) <|
  .cons (value_copies (tag1 0x42 8 2 rfl (by decide) (by decide) (by decide)) rfl (coin_runs h.remainingOfferCoin).codec rfl) <|
  .cons (value_copies (tag1 0x4a 9 2 rfl (by decide) (by decide) (by decide)) rfl (coin_runs h.receivedCoin).codec rfl) <|
  .cons (value_copies (tag1 0x52 10 2 rfl (by decide) (by decide) (by decide)) rfl (number_codec h.price) rfl) <|
  .cons (value_copies (tag1 0x5a 11 2 rfl (by decide) (by decide) (by decide)) rfl (number_codec h.amount) rfl) <|
  .cons (value_copies (tag1 0x62 12 2 rfl (by decide) (by decide) (by decide)) rfl (number_codec h.openAmount) rfl) <|
  .cons (num_copies (tag1 0x68 13 0 rfl (by decide) (by decide) (by decide)) rfl h.batchId rfl rfl) <|
  .cons (value_copies (tag1 0x72 14 2 rfl (by decide) (by decide) (by decide)) rfl (time_codec (decide_eq_true h.expireAt)) rfl) <|
  .cons (num_copies (tag1 0x78 15 0 rfl (by decide) (by decide) (by decide)) rfl (toInt32_toUint64 h.status).2 (toInt32_toUint64 h.status).1 rfl) <|
  .nil

theorem params_runs {m : Params} (h : m.Fits) : Runs paramsFields paramsFields m {} m :=
  .cons (num_copies (tag1 0x8 1 0 rfl (by decide) (by decide) (by decide)) rfl (u32 h.batchSize).1 (u32 h.batchSize).2 rfl) <|
  .cons (num_copies (tag1 0x10 2 0 rfl (by decide) (by decide) (by decide)) rfl (u32 h.tickPrecision).1 (u32 h.tickPrecision).2 rfl) <|
  .cons (string_copies (tag1 0x1a 3 2 rfl (by decide) (by decide) (by decide)) rfl rfl) <|
  .cons (string_copies (tag1 0x22 4 2 rfl (by decide) (by decide) (by decide)) rfl rfl) <|
  .cons (value_copies (tag1 0x2a 5 2 rfl (by decide) (by decide) (by decide)) rfl (number_codec h.minInitialPoolCoinSupply) rfl) <|
  .cons (repeated_copies (tag1 0x32 6 2 rfl (by decide) (by decide) (by decide)) rfl (fun _ _ => rfl) (fun _ _ _ => rfl) (fun v hv => (coin_runs (h.pairCreationFee v hv)).codec) rfl) <|
  .cons (repeated_copies (tag1 0x3a 7 2 rfl (by decide) (by decide) (by decide)) rfl (fun _ _ => rfl) (fun _ _ _ => rfl) (fun v hv => (coin_runs (h.poolCreationFee v hv)).codec) rfl) <|
  .cons (value_copies (tag1 0x42 8 2 rfl (by decide) (by decide) (by decide)) rfl (number_codec h.minInitialDepositAmount) rfl) <|
  .cons (value_copies (tag1 0x4a 9 2 rfl (by decide) (by decide) (by decide)) rfl (number_codec h.maxPriceLimitRatio) rfl) <|
  .cons (num_copies (tag1 0x50 10 0 rfl (by decide) (by decide) (by decide)) rfl (u32 h.maxNumMarketMakingOrderTicks).1 (u32 h.maxNumMarketMakingOrderTicks).2 rfl) <|
  .cons (num_copies (tag1 0x58 11 0 rfl (by decide) (by decide) (by decide)) rfl (u32 h.maxNumMarketMakingOrdersPerPair).1 (u32 h.maxNumMarketMakingOrdersPerPair).2 rfl) <|
  .cons (value_copies (tag1 0x62 12 2 rfl (by decide) (by decide) (by decide)) rfl (duration_codec h.maxOrderLifespan) rfl) <|
  .cons (value_copies (tag1 0x6a 13 2 rfl (by decide) (by decide) (by decide)) rfl (number_codec h.swapFeeRate) rfl) <|
  .cons (value_copies (tag1 0x72 14 2 rfl (by decide) (by decide) (by decide)) rfl (number_codec h.withdrawFeeRate) rfl) <|
  .cons (num_copies (tag1 0x78 15 0 rfl (by decide) (by decide) (by decide)) rfl h.depositExtraGas rfl rfl) <|
  .cons (num_copies (tag2 0x80 0x1 16 0 rfl (by decide) (by decide) (by decide) (by decide) (by decide)) rfl h.withdrawExtraGas rfl rfl) <|
  .cons (num_copies (tag2 0x88 0x1 17 0 rfl (by decide) (by decide) (by decide) (by decide) (by decide)) rfl h.orderExtraGas rfl rfl) <|
  .cons (num_copies (tag2 0x90 0x1 18 0 rfl (by decide) (by decide) (by decide) (by decide) (by decide)) rfl (u32 h.maxNumActivePoolsPerPair).1 (u32 h.maxNumActivePoolsPerPair).2 rfl) <|
  .nil

theorem numMMOrdersRecord_runs {m : NumMMOrdersRecord} (h : m.Fits) : Runs numMMOrdersRecordFields numMMOrdersRecordFields m {} m :=
  .cons (string_copies (tag1 0xa 1 2 rfl (by decide) (by decide) (by decide)) rfl rfl) <|
  .cons (num_copies (tag1 0x10 2 0 rfl (by decide) (by decide) (by decide)) rfl h.pairId rfl rfl) <|
  .cons (num_copies (tag1 0x18 3 0 rfl (by decide) (by decide) (by decide)) rfl (u32 h.numMarketMakingOrders).1 (u32 h.numMarketMakingOrders).2 rfl) <|
  .nil

theorem genesisState_runs {m : GenesisState} (h : m.Fits) : Runs genesisStateFields genesisStateFields m {} m :=
  .cons (value_copies (tag1 0xa 1 2 rfl (by decide) (by decide) (by decide)) rfl (params_runs h.params).codec rfl) <|
  .cons (num_copies (tag1 0x10 2 0 rfl (by decide) (by decide) (by decide)) rfl h.lastPairId rfl rfl) <|
  .cons (num_copies (tag1 0x18 3 0 rfl (by decide) (by decide) (by decide)) rfl h.lastPoolId rfl rfl) <|
  .cons (repeated_copies (tag1 0x22 4 2 rfl (by decide) (by decide) (by decide)) rfl (fun _ _ => rfl) (fun _ _ _ => rfl) (fun v hv => (pair_runs (h.pairs v hv)).codec) rfl) <|
  .cons (repeated_copies (tag1 0x2a 5 2 rfl (by decide) (by decide) (by decide)) rfl (fun _ _ => rfl) (fun _ _ _ => rfl) (fun v hv => (pool_runs (h.pools v hv)).codec) rfl) <|
  .cons (repeated_copies (tag1 0x32 6 2 rfl (by decide) (by decide) (by decide)) rfl (fun _ _ => rfl) (fun _ _ _ => rfl) (fun v hv => (depositRequest_runs (h.depositRequests v hv)).codec) rfl) <|
  .cons (repeated_copies (tag1 0x3a 7 2 rfl (by decide) (by decide) (by decide)) rfl (fun _ _ => rfl) (fun _ _ _ => rfl) (fun v hv => (withdrawRequest_runs (h.withdrawRequests v hv)).codec) rfl) <|
  .cons (repeated_copies (tag1 0x42 8 2 rfl (by decide) (by decide) (by decide)) rfl (fun _ _ => rfl) (fun _ _ _ => rfl) (fun v hv => (order_runs (h.orders v hv)).codec) rfl) <|
  .cons (repeated_copies (tag1 0x4a 9 2 rfl (by decide) (by decide) (by decide)) rfl (fun _ _ => rfl) (fun _ _ _ => rfl) (fun v hv => (numMMOrdersRecord_runs (h.numMarketMakingOrdersRecords v hv)).codec) rfl) <|
  .nil

theorem msgCreatePair_runs {m : MsgCreatePair} (h : m.Fits) : Runs msgCreatePairFields msgCreatePairFields m {} m :=
  .cons (string_copies (tag1 0xa 1 2 rfl (by decide) (by decide) (by decide)) rfl rfl) <|
  .cons (string_copies (tag1 0x12 2 2 rfl (by decide) (by decide) (by decide)) rfl rfl) <|
  .cons (string_copies (tag1 0x1a 3 2 rfl (by decide) (by decide) (by decide)) rfl rfl) <|
  .nil

theorem msgCreatePool_runs {m : MsgCreatePool} (h : m.Fits) : Runs msgCreatePoolFields msgCreatePoolFields m {} m :=
  .cons (string_copies (tag1 0xa 1 2 rfl (by decide) (by decide) (by decide)) rfl rfl) <|
  .cons (num_copies (tag1 0x10 2 0 rfl (by decide) (by decide) (by decide)) rfl h.pairId rfl rfl) <|
  .cons (repeated_copies (tag1 0x1a 3 2 rfl (by decide) (by decide) (by decide)) rfl (fun _ _ => rfl) (fun _ _ _ => rfl) (fun v hv => (coin_runs (h.depositCoins v hv)).codec) rfl) <|
  .nil

theorem msgCreateRangedPool_runs {m : MsgCreateRangedPool} (h : m.Fits) : Runs msgCreateRangedPoolFields msgCreateRangedPoolFields m {} m :=
  .cons (string_copies (tag1 0xa 1 2 rfl (by decide) (by decide) (by decide)) rfl rfl) <|
  .cons (num_copies (tag1 0x10 2 0 rfl (by decide) (by decide) (by decide)) rfl h.pairId rfl rfl) <|
  .cons (repeated_copies (tag1 0x1a 3 2 rfl (by decide) (by decide) (by decide)) rfl (fun _ _ => rfl) (fun _ _ _ => rfl) (fun v hv => (coin_runs (h.depositCoins v hv)).codec) rfl) <|
  .cons (value_copies (tag1 0x22 4 2 rfl (by decide) (by decide) (by decide)) rfl (number_codec h.minPrice) rfl) <|
  .cons (value_copies (tag1 0x2a 5 2 rfl (by decide) (by decide) (by decide)) rfl (number_codec h.maxPrice) rfl) <|
  .cons (value_copies (tag1 0x32 6 2 rfl (by decide) (by decide) (by decide)) rfl (number_codec h.initialPrice) rfl) <|
  .nil

theorem msgDeposit_runs {m : MsgDeposit} (h : m.Fits) : Runs msgDepositFields msgDepositFields m {} m :=
  .cons (string_copies (tag1 0xa 1 2 rfl (by decide) (by decide) (by decide)) rfl rfl) <|
  .cons (num_copies (tag1 0x10 2 0 rfl (by decide) (by decide) (by decide)) rfl h.poolId rfl rfl) <|
  .cons (repeated_copies (tag1 0x1a 3 2 rfl (by decide) (by decide) (by decide)) rfl (fun _ _ => rfl) (fun _ _ _ => rfl) (fun v hv => (coin_runs (h.depositCoins v hv)).codec) rfl) <|
  .nil

theorem msgWithdraw_runs {m : MsgWithdraw} (h : m.Fits) : Runs msgWithdrawFields msgWithdrawFields m {} m :=
  .cons (string_copies (tag1 0xa 1 2 rfl (by decide) (by decide) (by decide)) rfl rfl) <|
  .cons (num_copies (tag1 0x10 2 0 rfl (by decide) (by decide) (by decide)) rfl h.poolId rfl rfl) <|
  .cons (value_copies (tag1 0x1a 3 2 rfl (by decide) (by decide) (by decide)) rfl (coin_runs h.poolCoin).codec rfl) <|
  .nil

theorem msgLimitOrder_runs {m : MsgLimitOrder} (h : m.Fits) : Runs msgLimitOrderFields msgLimitOrderFields m {} m :=
  .cons (string_copies (tag1 0xa 1 2 rfl (by decide) (by decide) (by decide)) rfl rfl) <|
  .cons (num_copies (tag1 0x10 2 0 rfl (by decide) (by decide) (by decide)) rfl h.pairId rfl rfl) <|
  .cons (num_copies (tag1 0x18 3 0 rfl (by decide) (by decide) (by decide)) rfl (toInt32_toUint64 h.direction).2 (toInt32_toUint64 h.direction).1 rfl) <|
  .cons (value_copies (tag1 0x22 4 2 rfl (by decide) (by decide) (by decide)) rfl (coin_runs h.offerCoin).codec rfl) <|
  .cons (string_copies (tag1 0x2a 5 2 rfl (by decide) (by decide) (by decide)) rfl rfl) <|
  .cons (value_copies (tag1 0x32 6 2 rfl (by decide) (by decide) (by decide)) rfl (number_codec h.price) rfl) <|
  .cons (value_copies (tag1 0x3a 7 2 rfl (by decide) (by decide) (by decide)) rfl (number_codec h.amount) rfl) <|
  .cons (value_copies (tag1 0x42 8 2 rfl (by decide) (by decide) (by decide)) rfl (duration_codec h.orderLifespan) rfl) <|
  .nil

theorem msgMarketOrder_runs {m : MsgMarketOrder} (h : m.Fits) : Runs msgMarketOrderFields msgMarketOrderFields m {} m :=
  .cons (string_copies (tag1 0xa 1 2 rfl (by decide) (by decide) (by decide)) rfl rfl) <|
  .cons (num_copies (tag1 0x10 2 0 rfl (by decide) (by decide) (by decide)) rfl h.pairId rfl rfl) <|
  .cons (num_copies (tag1 0x18 3 0 rfl (by decide) (by decide) (by decide)) rfl (toInt32_toUint64 h.direction).2 (toInt32_toUint64 h.direction).1 rfl) <|
  .cons (value_copies (tag1 0x22 4 2 rfl (by decide) (by decide) (by decide)) rfl (coin_runs h.offerCoin).codec rfl) <|
  .cons (string_copies (tag1 0x2a 5 2 rfl (by decide) (by decide) (by decide)) rfl rfl) <|
  .cons (value_copies (tag1 0x32 6 2 rfl (by decide) (by decide) (by decide)) rfl (number_codec h.amount) rfl) <|
  .cons (value_copies (tag1 0x3a 7 2 rfl (by decide) (by decide) (by decide)) rfl (duration_codec h.orderLifespan) rfl) <|
  .nil

theorem msgMMOrder_runs {m : MsgMMOrder} (h : m.Fits) : Runs msgMMOrderFields msgMMOrderFields m {} m :=
  .cons (string_copies (tag1 0xa 1 2 rfl (by decide) (by decide) (by decide)) rfl rfl) <|
  .cons (num_copies (tag1 0x10 2 0 rfl (by decide) (by decide) (by decide)) rfl h.pairId rfl rfl) <|
  .cons (num_copies (tag1 0x18 3 0 rfl (by decide) (by decide) (by decide)) rfl (toInt32_toUint64 h.direction).2 (toInt32_toUint64 h.direction).1 rfl) <|
  .cons (value_copies (tag1 0x22 4 2 rfl (by decide) (by decide) (by decide)) rfl (coin_runs h.offerCoin).codec rfl) <|
  .cons (string_copies (tag1 0x2a 5 2 rfl (by decide) (by decide) (by decide)) rfl rfl) <|
  .cons (value_copies (tag1 0x32 6 2 rfl (by decide) (by decide) (by decide)) rfl (number_codec h.price) rfl) <|
  .cons (value_copies (tag1 0x3a 7 2 rfl (by decide) (by decide) (by decide)) rfl (number_codec h.amount) rfl) <|
  .cons (value_copies (tag1 0x42 8 2 rfl (by decide) (by decide) (by decide)) rfl (duration_codec h.orderLifespan) rfl) <|
  .nil

theorem msgCancelOrder_runs {m : MsgCancelOrder} (h : m.Fits) : Runs msgCancelOrderFields msgCancelOrderFields m {} m :=
  .cons (string_copies (tag1 0xa 1 2 rfl (by decide) (by decide) (by decide)) rfl rfl) <|
  .cons (num_copies (tag1 0x10 2 0 rfl (by decide) (by decide) (by decide)) rfl h.pairId rfl rfl) <|
  .cons (num_copies (tag1 0x18 3 0 rfl (by decide) (by decide) (by decide)) rfl h.orderId rfl rfl) <|
  .nil

theorem msgCancelAllOrders_runs {m : MsgCancelAllOrders} (h : m.Fits) : Runs msgCancelAllOrdersFields msgCancelAllOrdersFields m {} m :=
  .cons (string_copies (tag1 0xa 1 2 rfl (by decide) (by decide) (by decide)) rfl rfl) <|
  .cons (packed_copies (tag1 0x12 2 2 rfl (by decide) (by decide) (by decide)) rfl h.pairIds rfl rfl) <|
  .nil

theorem msgUpdateParams_runs {m : MsgUpdateParams} (h : m.Fits) : Runs msgUpdateParamsFields msgUpdateParamsFields m {} m :=
  .cons (string_copies (tag1 0xa 1 2 rfl (by decide) (by decide) (by decide)) rfl rfl) <|
  .cons (value_copies (tag1 0x12 2 2 rfl (by decide) (by decide) (by decide)) rfl (params_runs h.params).codec rfl) <|
  .nil

end Verif.Pb

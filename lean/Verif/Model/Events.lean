import Verif.Model.Batch
/-!
# The events the module emits (`ctx.EventManager().EmitEvents` in x/dex/keeper)

The functions of `Model/Keeper` and `Model/Batch` say what happens to the state; for each of them a companion here says which
events it emits when it is run from the given state, in order.  A companion of a function that fails (`none`) is empty, because
the events of a failed transaction are discarded with it.  Every attribute of every event is kept, as the value it prints;
addresses derived from ids (reserve and escrow addresses in `create_pair`, `create_pool`) are left out.
-/
namespace Verif.Dex
open Verif Verif.Amm

/-- The events (x/dex/types/events.go). -/
inductive Event where
  /-- `create_pair` (x/dex/keeper/pair.go:56-65). -/
  | createPair (creator : Nat) (base quote : Denom) (pairId : Nat)
  /-- `create_pool` (x/dex/keeper/pool.go:159-169) and `create_ranged_pool` (:270-280); the coins are those of the message. -/
  | createPool (ranged : Bool) (creator pairId : Nat) (coins : Coins) (poolId : Nat) (minted : Int)
  /-- `deposit` (x/dex/keeper/pool.go:335-343). -/
  | deposit (depositor poolId : Nat) (coins : Coins) (reqId : Nat)
  /-- `withdraw` (x/dex/keeper/pool.go:383-391). -/
  | withdraw (withdrawer poolId : Nat) (coin : Coin) (reqId : Nat)
  /-- `limit_order`, `market_order`, `mm_order` (x/dex/keeper/swap.go:143-158). -/
  | orderPlaced (typ : OType) (orderer pairId : Nat) (dir : Dir) (offer : Coin) (demand : Denom) (price amount : Int)
      (orderId batchId : Nat) (expireAt : Int) (refunded : Coin)
  /-- `cancel_order` (x/dex/keeper/swap.go:228-235). -/
  | cancelOrder (orderer pairId orderId : Nat)
  /-- `cancel_all_orders` (x/dex/keeper/swap.go:276-283). -/
  | cancelAllOrders (orderer : Nat) (pairIds orderIds : List Nat)
  /-- `user_order_matched` (x/dex/keeper/swap.go:439-450). -/
  | userMatched (dir : Dir) (orderer pairId orderId : Nat) (matched : Int) (paid received : Coin)
  /-- `pool_order_matched` (x/dex/keeper/swap.go:485-495). -/
  | poolMatched (dir : Dir) (pairId poolId : Nat) (matched : Int) (paid received : Coin)
  /-- `order_result` (x/dex/keeper/swap.go:524-538). -/
  | orderResult (dir : Dir) (orderer pairId orderId : Nat) (amount openAmt : Int) (offer remaining received : Coin)
      (status : OStatus)
  /-- `deposit_result` (x/dex/keeper/pool.go:465-477). -/
  | depositResult (reqId depositor poolId : Nat) (coins accepted refunded : Coins) (minted : Coin) (status : ReqStatus)
  /-- `withdrawal_result` (x/dex/keeper/pool.go:554-565). -/
  | withdrawResult (reqId withdrawer poolId : Nat) (coin : Coin) (refunded withdrawn : Coins) (status : ReqStatus)
  deriving DecidableEq, Repr

/-- The events of an iteration: those of each callback, run from the state the previous ones left. -/
def eachEv {α σ : Type} (f : α → σ → Option σ) (ev : α → σ → List Event) : List α → σ → List Event
  | [], _ => []
  | x :: xs, s =>
    match f x s with
    | none => []
    | some s' => ev x s ++ eachEv f ev xs s'

/-- The event of `CreatePair` (x/dex/keeper/pair.go:56-65). -/
def createPairEv (m : MsgCreatePair) (s : State) : List Event := [.createPair m.creator m.base m.quote (s.lastPairId + 1)]

/-- The event of `CreatePool` (x/dex/keeper/pool.go:159-169). -/
def createPoolEv (m : MsgCreatePool) (s : State) : List Event :=
  match validateCreatePool m s with
  | none => []
  | some pair =>
    match createBasicPool (amountOf m.coins pair.quote) (amountOf m.coins pair.base) with
    | none => []
    | some ap =>
      [.createPool false m.creator m.pairId m.coins (s.lastPoolId + 1) (max ap.ps s.params.minInitialPoolCoinSupply)]

/-- The event of `CreateRangedPool` (x/dex/keeper/pool.go:270-280). -/
def createRangedPoolEv (env : Env) (m : MsgCreateRangedPool) (s : State) : List Event :=
  match validateCreateRangedPool m s with
  | none => []
  | some pair =>
    match createRangedPool env.sqrt (amountOf m.coins pair.quote) (amountOf m.coins pair.base)
        m.minPrice m.maxPrice m.initialPrice with
    | .ok ap =>
      [.createPool true m.creator m.pairId m.coins (s.lastPoolId + 1) (max ap.ps s.params.minInitialPoolCoinSupply)]
    | _ => []

/-- The event of `Deposit` (x/dex/keeper/pool.go:335-343). -/
def depositEv (m : MsgDeposit) (s : State) : List Event :=
  match s.getPool m.poolId with
  | none => []
  | some pool => [.deposit m.depositor pool.id m.coins (pool.lastDepositId + 1)]

/-- The event of `Withdraw` (x/dex/keeper/pool.go:383-391). -/
def withdrawEv (m : MsgWithdraw) (s : State) : List Event :=
  match s.getPool m.poolId with
  | none => []
  | some pool => [.withdraw m.withdrawer pool.id m.coin (pool.lastWithdrawId + 1)]

/-- The event of `placeOrder` (x/dex/keeper/swap.go:143-158). -/
def placeOrderEv (typ : OType) (orderer pairId : Nat) (dir : Dir) (offer : Coin) (demand : Denom) (price amount lifespan : Int)
    (s : State) : List Event :=
  match s.getPair pairId with
  | none => []
  | some pair =>
    match orderPrice s.params pair typ dir price with
    | none => []
    | some rprice =>
      let roffer := offerCoinAmount dir rprice amount
      [.orderPlaced typ orderer pairId dir ⟨offer.denom, roffer⟩ demand rprice amount (pair.lastOrderId + 1) pair.batchId
        (s.time + lifespan) ⟨offer.denom, offer.amt - roffer⟩]

/-- The event of `FinishOrder` (x/dex/keeper/swap.go:524-538). -/
def finishOrderEv (o : OrderRec) (status : OStatus) : List Event :=
  if o.status.shouldBeDeleted then []
  else [.orderResult o.dir o.orderer o.pairId o.id o.amount o.openAmt ⟨o.offerDenom, o.offer⟩ ⟨o.offerDenom, o.remaining⟩
    ⟨o.demandDenom, o.received⟩ status]

/-- The events of `CancelOrder` (x/dex/keeper/swap.go:218-238). -/
def cancelOrderEv (m : MsgCancelOrder) (s : State) : List Event :=
  match s.getOrder m.pairId m.orderId with
  | none => []
  | some o => finishOrderEv o .canceled ++ [.cancelOrder m.orderer m.pairId m.orderId]

/-- Whether `CancelAllOrders` handles an order (x/dex/keeper/swap.go:257-264). -/
def cancelAllTakes (pairIds : List Nat) (o : OrderRec) (s : State) : Bool :=
  (pairIds.length = 0 ∨ o.pairId ∈ pairIds) &&
    match s.getPair o.pairId with
    | none => false
    | some pair => o.status ≠ .canceled ∧ o.batchId < pair.batchId

/-- The events of the callback of `CancelAllOrders` (x/dex/keeper/swap.go:264-268). -/
def cancelAllStepEv (pairIds : List Nat) (o : OrderRec) (s : State) : List Event :=
  if cancelAllTakes pairIds o s then finishOrderEv o .canceled else []

/-- The events of `CancelAllOrders` (x/dex/keeper/swap.go:241-286).  The listed ids are those of the handled orders; the pair
they belong to is not printed. -/
def cancelAllEv (m : MsgCancelAllOrders) (s : State) : List Event :=
  eachEv (cancelAllStep m.pairIds) (cancelAllStepEv m.pairIds) (s.ordersBy m.orderer) s ++
    [.cancelAllOrders m.orderer m.pairIds (((s.ordersBy m.orderer).filter (fun o => cancelAllTakes m.pairIds o s)).map (·.id))]

/-- The events of the callback over the orders in `ExecuteMatching` (x/dex/keeper/swap.go:296-300). -/
def collectOrderEv (o : OrderRec) (st : State × List Order) : List Event :=
  if o.status.isMatchable ∧ o.status ≠ .notExecuted ∧ o.expiredAt st.1.time then finishOrderEv o .expired else []

/-- The events of the second loop of `ApplyMatchResult` for one order (x/dex/keeper/swap.go:416-450): the result, if the order
is completed, comes before the match. -/
def applyOrderEv (pair : Pair) (o : Order) (st : ApplyState) : List Event :=
  if o.isMatched = false then []
  else
    match o.kind with
    | .user oid _ =>
      match st.s.getOrder pair.id oid with
      | none => []
      | some rec =>
        let matchedAmt := o.amount - o.openAmt
        let rec' := { rec with openAmt := rec.openAmt - matchedAmt, remaining := rec.remaining - o.paid,
                               received := rec.received + o.received }
        (if rec'.openAmt = 0 then finishOrderEv rec' .completed else []) ++
          [.userMatched o.dir rec.orderer pair.id oid matchedAmt ⟨rec.offerDenom, o.paid⟩ ⟨rec.demandDenom, o.received⟩]
    | .pool _ => []

/-- `PoolMatchResult` (x/dex/keeper/swap.go:403-409). -/
structure PoolMatch where
  poolId : Nat
  dir : Dir
  paid : Int
  received : Int
  matched : Int
  deriving DecidableEq, Repr

/-- Adding a matched pool order to the results of its pool, in order of first appearance (x/dex/keeper/swap.go:457-479). -/
def addPoolMatch (id : Nat) (o : Order) : List PoolMatch → List PoolMatch
  | [] => [⟨id, o.dir, o.paid, o.received, o.amount - o.openAmt⟩]
  | r :: rs =>
    if r.poolId = id then
      { r with paid := r.paid + o.paid, received := r.received + o.received, matched := r.matched + (o.amount - o.openAmt) } :: rs
    else r :: addPoolMatch id o rs

/-- `poolMatchResults` after the loop (x/dex/keeper/swap.go:410-479). -/
def poolMatches : List Order → List PoolMatch → List PoolMatch
  | [], rs => rs
  | o :: os, rs =>
    poolMatches os (match o.kind with
      | .user _ _ => rs
      | .pool id => if o.isMatched then addPoolMatch id o rs else rs)

/-- The events of `ApplyMatchResult` (x/dex/keeper/swap.go:386-498). -/
def applyMatchEv (pair : Pair) (os : List Order) (s : State) : List Event :=
  match BulkOp.run (queuePoolPayments pair os []) s.bank with
  | none => []
  | some b =>
    eachEv (applyOrder pair) (applyOrderEv pair) os ⟨{ s with bank := b }, [], []⟩ ++
      (poolMatches os []).map (fun r => .poolMatched r.dir pair.id r.poolId r.matched ⟨pair.offerDenom r.dir, r.paid⟩
        ⟨pair.demandDenom r.dir, r.received⟩)

/-- The events of `ExecuteMatching` (x/dex/keeper/swap.go:288-350). -/
def executeMatchingEv (env : Env) (pair : Pair) (s : State) : List Event :=
  eachEv collectOrder collectOrderEv (s.ordersOf pair.id) (s, []) ++
    match forEach collectOrder (s.ordersOf pair.id) (s, []) with
    | none => []
    | some (s1, os) =>
      match forEach (collectPool env pair) (s1.poolsOf pair.id) (s1, []) with
      | none => []
      | some (s2, pools) =>
        match keeperMatch env s2.params os pools pair.lastPrice with
        | some (some out) => applyMatchEv pair out.orders s2
        | _ => []

/-- The event of `FinishDepositRequest` (x/dex/keeper/pool.go:465-477). -/
def finishDepositEv (r : DepReq) (status : ReqStatus) : List Event :=
  if r.status ≠ .notExecuted then []
  else [.depositResult r.id r.depositor r.poolId r.coins r.accepted (coinsSub r.coins r.accepted) ⟨.pool r.poolId, r.minted⟩ status]

/-- The event of `ExecuteDepositRequest` (x/dex/keeper/pool.go:397-448). -/
def executeDepositEv (env : Env) (r : DepReq) (s : State) : List Event :=
  match s.getPool r.poolId with
  | none => []
  | some pool =>
    if pool.disabled then finishDepositEv r .failed
    else match s.getPair pool.pairId with
      | none => []
      | some pair =>
        let rx := s.poolRx pool pair
        let ry := s.poolRy pool pair
        let ps := s.poolSupply pool
        match ammPool env pool rx ry ps with
        | none => []
        | some ap =>
          if ap.isDepleted then finishDepositEv r .failed
          else
            let x := amountOf r.coins pair.quote
            let y := amountOf r.coins pair.base
            match Amm.deposit (env.depositOverflow rx ry ps x y) rx ry ps x y with
            | none => []
            | some (ax, ay, pc) =>
              if pc = 0 then finishDepositEv r .failed
              else finishDepositEv { r with accepted := [⟨pair.quote, ax⟩, ⟨pair.base, ay⟩], minted := pc } .succeeded

/-- The event of `FinishWithdrawRequest` (x/dex/keeper/pool.go:554-565). -/
def finishWithdrawEv (r : WdReq) (status : ReqStatus) : List Event :=
  if r.status ≠ .notExecuted then []
  else [.withdrawResult r.id r.withdrawer r.poolId r.coin (if status = .failed then [r.coin] else []) r.withdrawn status]

/-- The event of `ExecuteWithdrawRequest` (x/dex/keeper/pool.go:483-536). -/
def executeWithdrawEv (env : Env) (r : WdReq) (s : State) : List Event :=
  match s.getPool r.poolId with
  | none => []
  | some pool =>
    if pool.disabled then finishWithdrawEv r .failed
    else match s.getPair pool.pairId with
      | none => []
      | some pair =>
        let rx := s.poolRx pool pair
        let ry := s.poolRy pool pair
        let ps := s.poolSupply pool
        match ammPool env pool rx ry ps with
        | none => []
        | some ap =>
          if ap.isDepleted then finishWithdrawEv r .failed
          else
            match Amm.withdraw (env.withdrawOverflow rx ry ps r.coin.amt s.params.withdrawFeeRate) rx ry ps r.coin.amt
                s.params.withdrawFeeRate with
            | none => []
            | some (x, y) =>
              if x = 0 ∧ y = 0 then finishWithdrawEv r .failed
              else finishWithdrawEv { r with withdrawn := [⟨pair.quote, x⟩, ⟨pair.base, y⟩] } .succeeded

/-- The events of the expiry pass for one order (x/dex/keeper/batch.go:20-34). -/
def expireOrderEv (o : OrderRec) (s : State) : List Event :=
  if o.status.isMatchable && o.expiredAt s.time then finishOrderEv o .expired
  else if isTooSmallOrderAmount o.openAmt o.price then finishOrderEv o .expired
  else []

/-- The events of the deposit pass for one request (x/dex/keeper/batch.go:35-44). -/
def depositPassEv (env : Env) (r : DepReq) (s : State) : List Event :=
  if r.status = .notExecuted then executeDepositEv env r s else []

/-- The events of the withdraw pass for one request (x/dex/keeper/batch.go:45-54). -/
def withdrawPassEv (env : Env) (r : WdReq) (s : State) : List Event :=
  if r.status = .notExecuted then executeWithdrawEv env r s else []

/-- The events of `ExecuteRequests` (x/dex/keeper/batch.go:11-55). -/
def executeRequestsEv (env : Env) (s : State) : List Event :=
  match forEach (executeMatching env) s.pairs s with
  | none => []
  | some s1 =>
    match forEach expireOrder s1.orders s1 with
    | none => []
    | some s2 =>
      match forEach (depositPass env) s2.deposits s2 with
      | none => []
      | some s3 =>
        eachEv (executeMatching env) (executeMatchingEv env) s.pairs s ++ eachEv expireOrder expireOrderEv s1.orders s1 ++
          eachEv (depositPass env) (depositPassEv env) s2.deposits s2 ++
          eachEv (withdrawPass env) (withdrawPassEv env) s3.withdraws s3

/-- The events of `EndBlocker` (x/dex/module/abci.go:20-27). -/
def endBlockEv (env : Env) (s : State) : List Event :=
  if s.params.batchSize = 0 then []
  else if s.height % s.params.batchSize = 0 then executeRequestsEv env s
  else []

/-- The events of a transaction: none if the message is invalid or fails (x/dex/keeper/msg_server.go:25-131). -/
def txEv (valid : Bool) (handler : State → Option State) (ev : State → List Event) (s : State) : List Event :=
  if valid then (match handler s with | none => [] | some _ => ev s) else []

/-- The module's events of one step; bank transfers and parameter changes emit none of the module's events. -/
def stepEv (env : Env) : Op → State → List Event
  | .createPair m, s => txEv m.validateBasic (Dex.createPair m) (createPairEv m) s
  | .createPool m, s => txEv m.validateBasic (Dex.createPool m) (createPoolEv m) s
  | .createRangedPool m, s => txEv m.validateBasic (createRangedPoolMsg env m) (createRangedPoolEv env m) s
  | .deposit m, s => txEv m.validateBasic (depositMsg m) (depositEv m) s
  | .withdraw m, s => txEv m.validateBasic (withdrawMsg m) (withdrawEv m) s
  | .limitOrder m, s => txEv m.validateBasic (limitOrder m)
      (placeOrderEv .limit m.orderer m.pairId m.dir m.offer m.demand m.price m.amt m.lifespan) s
  | .marketOrder m, s => txEv m.validateBasic (marketOrder m)
      (placeOrderEv .market m.orderer m.pairId m.dir m.offer m.demand 0 m.amt m.lifespan) s
  | .mmOrder m, s => txEv m.validateBasicMM (mmOrder m)
      (placeOrderEv .mm m.orderer m.pairId m.dir m.offer m.demand m.price m.amt m.lifespan) s
  | .cancelOrder m, s => txEv m.validateBasic (Dex.cancelOrder m) (cancelOrderEv m) s
  | .cancelAllOrders m, s => txEv m.validateBasic (Dex.cancelAllOrders m) (cancelAllEv m) s
  | .transfer _ _ _, _ => []
  | .setParams _, _ => []
  | .beginBlock _ _, _ => []
  | .endBlock, s => endBlockEv env s

/-- The events of a history. -/
def runEv (env : Env) : List Op → State → List Event
  | [], _ => []
  | op :: ops, s =>
    match step env op s with
    | none => []
    | some s' => stepEv env op s ++ runEv env ops s'

end Verif.Dex

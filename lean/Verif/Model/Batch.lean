import Verif.Model.Keeper
/-!
# Batch execution: x/dex/keeper/swap.go (matching), pool.go (requests), batch.go, x/dex/module/abci.go

In the end blocker a panic or an error halts the chain: `none`.
-/
namespace Verif.Dex
open Verif Verif.Amm

/-! ## Matching -/

/-- `NewUserOrder` (x/dex/types/order.go:35-61).  `SafeMath` in it cannot overflow for amounts up to 10^40 and positive
prices, so its handler is not modelled; a stored order has a positive price. -/
def newUserOrder (o : OrderRec) : Order :=
  let amt := match o.dir with
    | .buy => min o.openAmt (Dec.truncateInt (Dec.quoTruncate (Dec.ofInt o.remaining) o.price))
    | .sell => o.openAmt
  newBaseOrder o.dir o.price amt o.remaining (.user o.id o.batchId)

/-- Callback over the orders of the pair in `ExecuteMatching` (x/dex/keeper/swap.go:291-315): the orders given to the book
are collected in the second component. -/
def collectOrder (o : OrderRec) (st : State × List Order) : Option (State × List Order) :=
  if o.status.isMatchable then
    if o.status ≠ .notExecuted ∧ o.expiredAt st.1.time then
      (finishOrder o .expired st.1).map (fun s => (s, st.2))
    else
      some (if o.status = .notExecuted then st.1.setOrder { o with status := .notMatched } else st.1,
        st.2 ++ [newUserOrder o])
  else some st

/-- Callback over the pools of the pair in `ExecuteMatching` (x/dex/keeper/swap.go:320-335): the pools that trade are
collected in the second component. -/
def collectPool (env : Env) (pair : Pair) (pool : PoolRec) (st : State × List (Nat × Pool)) :
    Option (State × List (Nat × Pool)) :=
  if pool.disabled then some st
  else match ammPool env pool (st.1.poolRx pool pair) (st.1.poolRy pool pair) (st.1.poolSupply pool) with
    | none => none
    | some ap =>
      if ap.isDepleted then some (st.1.markDisabled pool, st.2)
      else some (st.1, st.2 ++ [(pool.id, ap)])

/-- Heap holding the orders of a list; a Go order pointer is the position in the list. -/
def heapOf (os : List Order) : Heap := fun i => os.getD i (newBaseOrder .buy 1 0 0 (.pool 0))

/-- The order book of a list of orders (`AddOrder` in list order, x/dex/keeper/swap.go:303, :367, :371, :379). -/
def bookOf (os : List Order) : OrderBook := newOrderBook (heapOf os) (List.range os.length)

/-- The pool orders at the single match price (x/dex/keeper/swap.go:364-373). -/
def singlePriceOrders (mp : Int) : List (Nat × Pool) → Option (List Order)
  | [] => some []
  | (id, p) :: ps =>
    match p.buyAmountOver mp, p.sellAmountUnder mp, singlePriceOrders mp ps with
    | some b, some sl, some rest =>
      some ((if 0 < b then [newPoolOrder id .buy mp b] else []) ++ (if 0 < sl then [newPoolOrder id .sell mp sl] else [])
        ++ rest)
    | _, _, _ => none

/-- Result of a matching: the orders of the book afterwards (in book order), the match price, `quoteCoinDiff`. -/
structure MatchOut where
  orders : List Order
  price : Int
  diff : Int
  deriving DecidableEq, Repr

/-- `Match` (x/dex/keeper/swap.go:352-384) on user orders `os` and pools.  Outer `none` is a panic (a pool without a price
panics when it is asked for its best price, x/dex/amm/pool.go:331-336); inner `none` is `matched = false`. -/
def keeperMatch (env : Env) (pr : Params) (os : List Order) (pools : List (Nat × Pool)) (last : Option Int) :
    Option (Option MatchOut) :=
  match last with
  | none =>
    if pools.any (fun p => p.2.price.isNone) then none
    else
      match findMatchPrice (multipleOrderViews ((makeView (heapOf os) (bookOf os)).toView :: pools.map (fun p => p.2.toView)))
          pr.tickPrec with
      | none => some none
      | some mp =>
        match singlePriceOrders mp pools with
        | none => none
        | some pos =>
          let all := os ++ pos
          match matchAtSinglePrice (heapOf all) (bookOf all) mp with
          | none => none
          | some (_, false) => some none
          | some (st, true) => some (some ⟨(bookOf all).orders.map st.heap, mp, st.diff⟩)
  | some lp =>
    match pr.priceLimits lp with
    | none => none
    | some (lo, hi) =>
      let all := os ++ pools.flatMap (fun p => poolOrders env.sqrt p.1 p.2 lo hi pr.tickPrec)
      match obMatch (heapOf all) (bookOf all) lp with
      | none => none
      | some r =>
        if r.matched then some (some ⟨(bookOf all).orders.map r.st.heap, r.matchPrice, r.st.diff⟩) else some none

/-- The payments of the matched pool orders (x/dex/keeper/swap.go:388-398). -/
def queuePoolPayments (pair : Pair) : List Order → BulkOp → BulkOp
  | [], op => op
  | o :: os, op =>
    queuePoolPayments pair os (match o.kind with
      | .pool id =>
        if o.isMatched then op.queue (.poolReserve id) (.pairEscrow pair.id) [⟨pair.offerDenom o.dir, o.paid⟩] else op
      | .user _ _ => op)

/-- Accumulators of the second loop of `ApplyMatchResult` (x/dex/keeper/swap.go:402-411): state, queued transfers, and the
direction recorded for each pool (`poolMatchResultById`). -/
structure ApplyState where
  s : State
  op : BulkOp
  dirs : List (Nat × Dir)

/-- Body of the second loop of `ApplyMatchResult` (x/dex/keeper/swap.go:412-479).  `Coin.Sub` panics on a negative result. -/
def applyOrder (pair : Pair) (o : Order) (st : ApplyState) : Option ApplyState :=
  if o.isMatched = false then some st
  else
    let matchedAmt := o.amount - o.openAmt
    match o.kind with
    | .user oid _ =>
      match st.s.getOrder pair.id oid with
      | none => none
      | some rec =>
        if rec.remaining < o.paid then none
        else
          let rec' := { rec with openAmt := rec.openAmt - matchedAmt, remaining := rec.remaining - o.paid,
                                 received := rec.received + o.received }
          match (if rec'.openAmt = 0 then finishOrder rec' .completed st.s
              else some (st.s.setOrder { rec' with status := .partiallyMatched })) with
          | none => none
          | some s' =>
            some { st with s := s', op := st.op.queue (.pairEscrow pair.id) (.user rec.orderer) [⟨rec.demandDenom, o.received⟩] }
    | .pool id =>
      let op := st.op.queue (.pairEscrow pair.id) (.poolReserve id) [⟨pair.demandDenom o.dir, o.received⟩]
      match st.dirs.find? (fun d => d.1 == id) with
      | none => some { st with op, dirs := st.dirs ++ [(id, o.dir)] }
      | some d => if d.2 ≠ o.dir then none else some { st with op }

/-- `ApplyMatchResult` (x/dex/keeper/swap.go:386-498). -/
def applyMatchResult (pair : Pair) (os : List Order) (diff : Int) (s : State) : Option State :=
  match BulkOp.run (queuePoolPayments pair os []) s.bank with
  | none => none
  | some b =>
    match forEach (applyOrder pair) os ⟨{ s with bank := b }, [], []⟩ with
    | none => none
    | some st =>
      match BulkOp.run (st.op.queue (.pairEscrow pair.id) s.params.dustCollector [⟨pair.quote, diff⟩]) st.s.bank with
      | none => none
      | some b2 => some { st.s with bank := b2 }

/-- Ghost: base coin bought minus base coin sold in a matching. -/
def baseImbalance (os : List Order) : Int :=
  (os.map (fun o => match o.dir with | .buy => o.amount - o.openAmt | .sell => -(o.amount - o.openAmt))).sum

/-- `ExecuteMatching` (x/dex/keeper/swap.go:288-350). -/
def executeMatching (env : Env) (pair : Pair) (s : State) : Option State :=
  match forEach collectOrder (s.ordersOf pair.id) (s, []) with
  | none => none
  | some (s1, os) =>
    match forEach (collectPool env pair) (s1.poolsOf pair.id) (s1, []) with
    | none => none
    | some (s2, pools) =>
      match keeperMatch env s2.params os pools pair.lastPrice with
      | none => none
      | some none => some (s2.setPair { pair with batchId := pair.batchId + 1 })
      | some (some out) =>
        match applyMatchResult pair out.orders out.diff s2 with
        | none => none
        | some s3 =>
          let g := s3.shortfall
          some ({ s3 with shortfall := fun id => g id + (if id = pair.id then baseImbalance out.orders else 0) }.setPair
            { pair with lastPrice := some out.price, batchId := pair.batchId + 1 })

/-! ## Requests -/

/-- `Coins.Sub` (x/dex/keeper/pool.go:456), per entry; accepted coins are among the offered ones. -/
def coinsSub (a b : Coins) : Coins := a.map (fun c => ⟨c.denom, c.amt - amountOf b c.denom⟩)

/-- `FinishDepositRequest` (x/dex/keeper/pool.go:451-480). `Coins.Sub` panics if a result is negative, in particular if coins
are subtracted that were not offered. -/
def finishDeposit (r : DepReq) (status : ReqStatus) (s : State) : Option State :=
  if r.status ≠ .notExecuted then some s
  else
    let refund := coinsSub r.coins r.accepted
    if refund.any (fun c => c.amt < 0) || r.accepted.any (fun c => amountOf r.coins c.denom < amountOf r.accepted c.denom) then none
    else
      match (if refund.all (fun c => c.amt == 0) then some s.bank
        else s.bank.send .globalEscrow (.user r.depositor) refund) with
      | none => none
      | some b => some ({ s with bank := b }.setDeposit { r with status })

/-- `ExecuteDepositRequest` (x/dex/keeper/pool.go:397-448). -/
def executeDeposit (env : Env) (r : DepReq) (s : State) : Option State :=
  match s.getPool r.poolId with
  | none => none
  | some pool =>
    if pool.disabled then finishDeposit r .failed s
    else match s.getPair pool.pairId with
      | none => none
      | some pair =>
        let rx := s.poolRx pool pair
        let ry := s.poolRy pool pair
        let ps := s.poolSupply pool
        match ammPool env pool rx ry ps with
        | none => none
        | some ap =>
          if ap.isDepleted then finishDeposit r .failed (s.markDisabled pool)
          else
            let x := amountOf r.coins pair.quote
            let y := amountOf r.coins pair.base
            match deposit (env.depositOverflow rx ry ps x y) rx ry ps x y with
            | none => none
            | some (ax, ay, pc) =>
              if pc = 0 then finishDeposit r .failed s
              else
                match s.bank.mint ⟨.pool pool.id, pc⟩ with
                | none => none
                | some b1 =>
                  let accepted : Coins := [⟨pair.quote, ax⟩, ⟨pair.base, ay⟩]
                  let op := (BulkOp.queue [] .globalEscrow (.poolReserve pool.id) accepted).queue .dexModule (.user r.depositor)
                    [⟨.pool pool.id, pc⟩]
                  match op.run b1 with
                  | none => none
                  | some b2 => finishDeposit { r with accepted, minted := pc } .succeeded { s with bank := b2 }

/-- `FinishWithdrawRequest` (x/dex/keeper/pool.go:539-568). -/
def finishWithdraw (r : WdReq) (status : ReqStatus) (s : State) : Option State :=
  if r.status ≠ .notExecuted then some s
  else
    match (if status = .failed then s.bank.send .globalEscrow (.user r.withdrawer) [r.coin] else some s.bank) with
    | none => none
    | some b => some ({ s with bank := b }.setWithdraw { r with status })

/-- `ExecuteWithdrawRequest` (x/dex/keeper/pool.go:483-536). -/
def executeWithdraw (env : Env) (r : WdReq) (s : State) : Option State :=
  match s.getPool r.poolId with
  | none => none
  | some pool =>
    if pool.disabled then finishWithdraw r .failed s
    else match s.getPair pool.pairId with
      | none => none
      | some pair =>
        let rx := s.poolRx pool pair
        let ry := s.poolRy pool pair
        let ps := s.poolSupply pool
        match ammPool env pool rx ry ps with
        | none => none
        | some ap =>
          if ap.isDepleted then finishWithdraw r .failed (s.markDisabled pool)
          else
            match withdraw (env.withdrawOverflow rx ry ps r.coin.amt s.params.withdrawFeeRate) rx ry ps r.coin.amt
                s.params.withdrawFeeRate with
            | none => none
            | some (x, y) =>
              if x = 0 ∧ y = 0 then finishWithdraw r .failed s
              else
                let withdrawn : Coins := [⟨pair.quote, x⟩, ⟨pair.base, y⟩]
                let op := (BulkOp.queue [] .globalEscrow .dexModule [r.coin]).queue (.poolReserve pool.id) (.user r.withdrawer)
                  withdrawn
                match op.run s.bank with
                | none => none
                | some b1 =>
                  match b1.burn r.coin with
                  | none => none
                  | some b2 =>
                    let s1 := { s with bank := b2 }
                    let s2 := if r.coin.amt = ps then s1.markDisabled pool else s1
                    finishWithdraw { r with withdrawn } .succeeded s2

/-! ## Blocks -/

/-- Callback of the expiry pass (x/dex/keeper/batch.go:20-34). -/
def expireOrder (o : OrderRec) (s : State) : Option State :=
  if o.status.isMatchable && o.expiredAt s.time then finishOrder o .expired s
  else if isTooSmallOrderAmount o.openAmt o.price then finishOrder o .expired s
  else some s

/-- Callback of the deposit pass (x/dex/keeper/batch.go:35-44). -/
def depositPass (env : Env) (r : DepReq) (s : State) : Option State :=
  if r.status = .notExecuted then executeDeposit env r s else some s

/-- Callback of the withdraw pass (x/dex/keeper/batch.go:45-54). -/
def withdrawPass (env : Env) (r : WdReq) (s : State) : Option State :=
  if r.status = .notExecuted then executeWithdraw env r s else some s

/-- `ExecuteRequests` (x/dex/keeper/batch.go:11-55). -/
def executeRequests (env : Env) (s : State) : Option State :=
  match forEach (executeMatching env) s.pairs s with
  | none => none
  | some s1 =>
    match forEach expireOrder s1.orders s1 with
    | none => none
    | some s2 =>
      match forEach (depositPass env) s2.deposits s2 with
      | none => none
      | some s3 => forEach (withdrawPass env) s3.withdraws s3

/-- `DeleteOutdatedRequests` (x/dex/keeper/batch.go:59-78). -/
def deleteOutdated (s : State) : State :=
  { s with
    deposits := s.deposits.filter (fun r => !r.status.shouldBeDeleted)
    withdraws := s.withdraws.filter (fun r => !r.status.shouldBeDeleted)
    orders := s.orders.filter (fun o => !o.status.shouldBeDeleted) }

/-- `BeginBlocker` (x/dex/module/abci.go:14-18), in a block of the given height and time. -/
def beginBlock (height : Nat) (time : Int) (s : State) : State := deleteOutdated { s with height, time }

/-- `EndBlocker` (x/dex/module/abci.go:20-27); a zero batch size panics. -/
def endBlock (env : Env) (s : State) : Option State :=
  if s.params.batchSize = 0 then none
  else if s.height % s.params.batchSize = 0 then executeRequests env s
  else some s

/-- What can happen to the module: messages, transfers between accounts by users, parameter changes, block boundaries. -/
inductive Op where
  | createPair (m : MsgCreatePair)
  | createPool (m : MsgCreatePool)
  | createRangedPool (m : MsgCreateRangedPool)
  | deposit (m : MsgDeposit)
  | withdraw (m : MsgWithdraw)
  | limitOrder (m : MsgLimitOrder)
  | marketOrder (m : MsgMarketOrder)
  | mmOrder (m : MsgLimitOrder)
  | cancelOrder (m : MsgCancelOrder)
  | cancelAllOrders (m : MsgCancelAllOrders)
  | transfer (src : Nat) (dst : Addr) (coins : Coins)
  | setParams (p : Params)
  | beginBlock (height : Nat) (time : Int)
  | endBlock

/-- A transaction (x/dex/keeper/msg_server.go:25-131 after `ValidateBasic`): an invalid or failing message changes nothing. -/
def tx (valid : Bool) (handler : State → Option State) (s : State) : State := if valid then (handler s).getD s else s

/-- One step; `none` is a chain halt.  `setParams` is a parameter change (x/dex/keeper/params.go:20-22 and the parameter
module): invalid parameters are refused. -/
def step (env : Env) : Op → State → Option State
  | .createPair m, s => some (tx m.validateBasic (createPair m) s)
  | .createPool m, s => some (tx m.validateBasic (createPool m) s)
  | .createRangedPool m, s => some (tx m.validateBasic (createRangedPoolMsg env m) s)
  | .deposit m, s => some (tx m.validateBasic (depositMsg m) s)
  | .withdraw m, s => some (tx m.validateBasic (withdrawMsg m) s)
  | .limitOrder m, s => some (tx m.validateBasic (limitOrder m) s)
  | .marketOrder m, s => some (tx m.validateBasic (marketOrder m) s)
  | .mmOrder m, s => some (tx m.validateBasicMM (mmOrder m) s)
  | .cancelOrder m, s => some (tx m.validateBasic (cancelOrder m) s)
  | .cancelAllOrders m, s => some (tx m.validateBasic (cancelAllOrders m) s)
  | .transfer src dst cs, s => some (tx true (fun s => (s.bank.send (.user src) dst cs).map (fun b => { s with bank := b })) s)
  | .setParams p, s => some (tx p.validate (fun s => some { s with params := p }) s)
  | .beginBlock h t, s => some (beginBlock h t s)
  | .endBlock, s => endBlock env s

/-- A history. -/
def run (env : Env) : List Op → State → Option State
  | [], s => some s
  | op :: ops, s => (step env op s).bind (run env ops)

end Verif.Dex

import Verif.Model.Batch
import Verif.Proofs.Store
import Verif.Proofs.Bank
import Mathlib.Logic.Relation
/-! # Elementary changes of the state

Every handler and every pass of the end blocker is a sequence of `Atom`s (`Verif/Proofs/Decompose.lean`). -/
namespace Verif.Dex
open Verif Verif.Amm Verif.Spec

/-- A finished order. -/
def OrderRec.done (o : OrderRec) : Bool := o.status.shouldBeDeleted

theorem matchable_iff (s : OStatus) : s.isMatchable = !s.shouldBeDeleted := by cases s <;> rfl

/-- Transfers only. -/
structure BankStep (b b' : Bank) : Prop where
  supply : b'.supply = b.supply
  nonneg : NonNegative b → NonNegative b'
  sum : SupplyIsSum b → SupplyIsSum b'

theorem BankStep.refl (b : Bank) : BankStep b b := ⟨rfl, id, id⟩

theorem BankStep.trans {a b c : Bank} (h : BankStep a b) (h' : BankStep b c) : BankStep a c :=
  ⟨h'.supply.trans h.supply, fun x => h'.nonneg (h.nonneg x), fun x => h'.sum (h.sum x)⟩

theorem bankStep_send {b b' : Bank} {src dst : Addr} {cs : Coins} (h : b.send src dst cs = some b') : BankStep b b' :=
  ⟨(send_some h).2.2.1, fun hb => send_nonneg hb h, fun hb => send_supply hb h⟩

theorem bankStep_run {op : BulkOp} {b b' : Bank} (h : op.run b = some b') : BankStep b b' :=
  ⟨(run_some h).1, fun hb => run_nonneg hb h, fun hb => run_supply hb h⟩

/-- Nothing was taken from the global escrow. -/
def KeepsEscrow (b b' : Bank) : Prop := ∀ d, b.bal .globalEscrow d ≤ b'.bal .globalEscrow d

/-- The fields of an order that never change. -/
def SameOrder (a b : OrderRec) : Prop :=
  b.typ = a.typ ∧ b.id = a.id ∧ b.pairId = a.pairId ∧ b.msgHeight = a.msgHeight ∧ b.orderer = a.orderer ∧ b.dir = a.dir ∧
  b.offerDenom = a.offerDenom ∧ b.demandDenom = a.demandDenom ∧ b.offer = a.offer ∧ b.price = a.price ∧
  b.amount = a.amount ∧ b.batchId = a.batchId ∧ b.expireAt = a.expireAt

theorem SameOrder.refl (a : OrderRec) : SameOrder a a := by simp [SameOrder]

theorem SameOrder.trans {a b c : OrderRec} (h : SameOrder a b) (h' : SameOrder b c) : SameOrder a c := by
  unfold SameOrder at *
  simp_all

theorem SameOrder.key {a b : OrderRec} (h : SameOrder a b) : b.key = a.key := by
  unfold SameOrder at h; unfold OrderRec.key; simp [h]

/-- The counter of market-making orders after the order `o` is finished. -/
def State.decMM (s : State) (o : OrderRec) : State :=
  if o.typ = .mm then
    s.setNumMM o.orderer o.pairId
      (if s.getNumMM o.orderer o.pairId ≤ 1 then none else some (s.getNumMM o.orderer o.pairId - 1))
  else s

/-- The counter of market-making orders after the order `o` is placed. -/
def State.incMM (s : State) (o : OrderRec) : State :=
  if o.typ = .mm then s.setNumMM o.orderer o.pairId (some (s.getNumMM o.orderer o.pairId + 1)) else s

inductive Atom : State → State → Prop
  | bank {s : State} (b : Bank) (h : BankStep s.bank b) (hg : KeepsEscrow s.bank b) : Atom s { s with bank := b }
  | newPair {s : State} (base quote : Denom) (hne : base ≠ quote) (hu : s.getPairByDenoms base quote = none) :
      Atom s ({ s with lastPairId := s.lastPairId + 1 }.setPair (Dex.newPair (s.lastPairId + 1) base quote))
  | nextBatch {s : State} (pair : Pair) (lp : Option Int) (g : Nat → Int) (hp : pair ∈ s.pairs)
      (ho : ∀ o ∈ s.orders, o.pairId = pair.id → o.status ≠ .notExecuted) :
      Atom s ({ s with shortfall := g }.setPair { pair with lastPrice := lp, batchId := pair.batchId + 1 })
  | newPool {s : State} (pair : Pair) (creator : Nat) (range : Option (Int × Int)) (amt : Int) (b : Bank) (hp : pair ∈ s.pairs)
      (hb : range = none → ∀ p ∈ s.pools, p.pairId = pair.id → p.range = none → p.disabled = true)
      (hcap : s.numActivePools pair.id < s.params.maxNumActivePools)
      (ha : 0 < amt) (hm : s.bank.mint ⟨.pool (s.lastPoolId + 1), amt⟩ = some b) :
      Atom s ({ s with lastPoolId := s.lastPoolId + 1, bank := b }.setPool (Dex.newPool (s.lastPoolId + 1) pair.id creator range))
  | disablePool {s : State} (pool : PoolRec) (hp : pool ∈ s.pools) : Atom s (s.markDisabled pool)
  | mint {s : State} (pool : PoolRec) (amt : Int) (b : Bank) (hp : pool ∈ s.pools) (ha : pool.disabled = false)
      (hm : s.bank.mint ⟨.pool pool.id, amt⟩ = some b) : Atom s { s with bank := b }
  | burn {s : State} (pool : PoolRec) (amt : Int) (b : Bank) (hp : pool ∈ s.pools) (ha : pool.disabled = false)
      (hm : s.bank.burn ⟨.pool pool.id, amt⟩ = some b) :
      Atom s (if amt = s.bank.supply (.pool pool.id) then { s with bank := b }.markDisabled pool else { s with bank := b })
  | newDeposit {s : State} (pool : PoolRec) (r : DepReq) (b : Bank) (hp : pool ∈ s.pools) (ha : pool.disabled = false)
      (h : BankStep s.bank b) (hb : ∀ d, b.bal .globalEscrow d = s.bank.bal .globalEscrow d + amountOf r.coins d)
      (hid : r.id = pool.lastDepositId + 1) (hpid : r.poolId = pool.id) (hacc : r.accepted = []) (hst : r.status = .notExecuted)
      (hpos : ∀ c ∈ r.coins, 0 < c.amt) (hnd : (r.coins.map (·.denom)).Nodup) (hh : r.msgHeight = s.height) :
      Atom s (({ s with bank := b }.setPool { pool with lastDepositId := pool.lastDepositId + 1 }).setDeposit r)
  | newWithdraw {s : State} (pool : PoolRec) (r : WdReq) (b : Bank) (hp : pool ∈ s.pools) (ha : pool.disabled = false)
      (h : BankStep s.bank b) (hb : ∀ d, b.bal .globalEscrow d = s.bank.bal .globalEscrow d + amountOf [r.coin] d)
      (hid : r.id = pool.lastWithdrawId + 1) (hpid : r.poolId = pool.id) (hst : r.status = .notExecuted)
      (hden : r.coin.denom = .pool pool.id) (hpos : 0 < r.coin.amt) (hh : r.msgHeight = s.height) :
      Atom s (({ s with bank := b }.setPool { pool with lastWithdrawId := pool.lastWithdrawId + 1 }).setWithdraw r)
  | finDeposit {s : State} (r r' : DepReq) (b : Bank) (hr : r ∈ s.deposits) (hst : r.status = .notExecuted)
      (hst' : r'.status ≠ .notExecuted)
      (hs : r'.id = r.id ∧ r'.poolId = r.poolId ∧ r'.msgHeight = r.msgHeight ∧ r'.depositor = r.depositor ∧ r'.coins = r.coins)
      (h : BankStep s.bank b) (hb : ∀ d, s.bank.bal .globalEscrow d - amountOf r.coins d ≤ b.bal .globalEscrow d) :
      Atom s ({ s with bank := b }.setDeposit r')
  | finWithdraw {s : State} (r r' : WdReq) (b : Bank) (hr : r ∈ s.withdraws) (hst : r.status = .notExecuted)
      (hst' : r'.status ≠ .notExecuted)
      (hs : r'.id = r.id ∧ r'.poolId = r.poolId ∧ r'.msgHeight = r.msgHeight ∧ r'.withdrawer = r.withdrawer ∧ r'.coin = r.coin)
      (h : BankStep s.bank b) (hb : ∀ d, s.bank.bal .globalEscrow d - amountOf [r.coin] d ≤ b.bal .globalEscrow d) :
      Atom s ({ s with bank := b }.setWithdraw r')
  | newOrder {s : State} (pair : Pair) (o : OrderRec) (b : Bank) (hp : pair ∈ s.pairs) (h : BankStep s.bank b)
      (hg : KeepsEscrow s.bank b) (hid : o.id = pair.lastOrderId + 1) (hpid : o.pairId = pair.id)
      (hbid : o.batchId = pair.batchId) (hst : o.status = .notExecuted) (hopen : o.openAmt = o.amount)
      (hrem : 0 ≤ o.remaining) (hpr : 0 < o.price) (hoff : o.offerDenom = pair.offerDenom o.dir)
      (hdem : o.demandDenom = pair.demandDenom o.dir)
      (hcap : o.typ = .mm → s.getNumMM o.orderer o.pairId < s.params.maxNumMMOrders) :
      Atom s ((({ s with bank := b }.setPair { pair with lastOrderId := pair.lastOrderId + 1 }).setOrder o).incMM o)
  | updOrder {s : State} (o o' : OrderRec) (ho : o ∈ s.orders) (hd : o.done = false)
      (hst : o'.status = .notMatched ∨ o'.status = .partiallyMatched) (hs : SameOrder o o') (hrem : 0 ≤ o'.remaining) : Atom s (s.setOrder o')
  | finOrder {s : State} (o o' : OrderRec) (b : Bank) (ho : o ∈ s.orders) (hd : o.done = false) (hd' : o'.done = true)
      (hs : SameOrder o o') (hrem : 0 ≤ o'.remaining) (h : BankStep s.bank b) (hg : KeepsEscrow s.bank b) :
      Atom s (({ s with bank := b }.setOrder o').decMM o')

/-- The live market-making orders of an account on a pair. -/
def liveMM (os : List OrderRec) (orderer pairId : Nat) : Nat :=
  os.countP (fun o => o.typ == .mm && !o.done && o.orderer == orderer && o.pairId == pairId)

/-- Coins of the pending deposit requests. -/
def pendingDeposits (l : List DepReq) (d : Denom) : Int :=
  (l.map (fun r => if r.status = .notExecuted then amountOf r.coins d else 0)).sum

/-- Coins of the pending withdraw requests. -/
def pendingWithdraws (l : List WdReq) (d : Denom) : Int :=
  (l.map (fun r => if r.status = .notExecuted then amountOf [r.coin] d else 0)).sum

/-- The structural invariant. -/
structure WF (s : State) : Prop where
  pairsS : Sorted Pair.key s.pairs
  poolsS : Sorted PoolRec.key s.pools
  depsS : Sorted DepReq.key s.deposits
  wdsS : Sorted WdReq.key s.withdraws
  ordersS : Sorted OrderRec.key s.orders
  pairIds : ∀ p ∈ s.pairs, 1 ≤ p.id ∧ p.id ≤ s.lastPairId
  pairAll : ∀ id, 1 ≤ id → id ≤ s.lastPairId → ∃ p ∈ s.pairs, p.id = id
  pairNe : ∀ p ∈ s.pairs, p.base ≠ p.quote ∧ 1 ≤ p.batchId
  pairUniq : ∀ p ∈ s.pairs, ∀ q ∈ s.pairs, p.base = q.base → p.quote = q.quote → p.id = q.id
  poolIds : ∀ p ∈ s.pools, 1 ≤ p.id ∧ p.id ≤ s.lastPoolId ∧ ∃ q ∈ s.pairs, q.id = p.pairId
  poolAll : ∀ id, 1 ≤ id → id ≤ s.lastPoolId → ∃ p ∈ s.pools, p.id = id
  deps : ∀ r ∈ s.deposits, 1 ≤ r.id ∧ (∃ p ∈ s.pools, p.id = r.poolId ∧ r.id ≤ p.lastDepositId) ∧
    (∀ c ∈ r.coins, 0 < c.amt) ∧ (r.coins.map (·.denom)).Nodup ∧ (r.status = .notExecuted → r.accepted = [])
  wds : ∀ r ∈ s.withdraws, 1 ≤ r.id ∧ (∃ p ∈ s.pools, p.id = r.poolId ∧ r.id ≤ p.lastWithdrawId) ∧
    0 < r.coin.amt ∧ r.coin.denom = .pool r.poolId
  ords : ∀ o ∈ s.orders, 1 ≤ o.id ∧ 1 ≤ o.batchId ∧ ∃ p ∈ s.pairs, p.id = o.pairId ∧ o.id ≤ p.lastOrderId ∧
    o.batchId ≤ p.batchId ∧ (o.status = .notExecuted → o.batchId = p.batchId)
  ordsOk : ∀ o ∈ s.orders, 0 ≤ o.remaining ∧ 0 < o.price ∧ ∃ p ∈ s.pairs, p.id = o.pairId ∧
    o.offerDenom = p.offerDenom o.dir ∧ o.demandDenom = p.demandDenom o.dir
  mm : ∀ a p, s.numMM a p = if liveMM s.orders a p = 0 then none else some (liveMM s.orders a p)
  bankNN : NonNegative s.bank
  bankSum : SupplyIsSum s.bank
  noSupply : ∀ id, s.lastPoolId < id → s.bank.supply (.pool id) = 0
  activeSupply : ∀ p ∈ s.pools, p.disabled = false → 0 < s.bank.supply (.pool p.id)
  escrow : ∀ d, pendingDeposits s.deposits d + pendingWithdraws s.withdraws d ≤ s.bank.bal .globalEscrow d
  basicUniq : ∀ p ∈ s.pools, ∀ q ∈ s.pools, p.pairId = q.pairId → p.range = none → q.range = none → p.disabled = false →
    q.disabled = false → p.id = q.id

/-- Sequences of elementary changes. -/
abbrev Reach : State → State → Prop := Relation.ReflTransGen Atom

end Verif.Dex

import Verif.Spec.History
import Verif.Model.Batch
/-! # Specification vocabulary: one market among others (C84) -/
namespace Verif.Spec
open Verif Verif.Dex

/-- A pool of the pair `q`. -/
def PoolOf (s : State) (q id : Nat) : Prop := ∃ p ∈ s.pools, p.id = id ∧ p.pairId = q

/-- The two states hold the same market of the pair `q`: the same pair record, pools, orders and requests, the same coins in the
reserves of the pools and the same amounts of pool coins; the block and the parameters are the same too.  Everything else can
differ: other pairs and their pools, orders and requests, all balances but those of the reserves, and all counters. -/
structure SameMarket (q : Nat) (s t : State) : Prop where
  params : s.params = t.params
  block : s.height = t.height ∧ s.time = t.time
  pair : ∀ p, p.id = q → (p ∈ s.pairs ↔ p ∈ t.pairs)
  pools : ∀ p, p.pairId = q → (p ∈ s.pools ↔ p ∈ t.pools)
  orders : ∀ o, o.pairId = q → (o ∈ s.orders ↔ o ∈ t.orders)
  deposits : ∀ r, PoolOf s q r.poolId → (r ∈ s.deposits ↔ r ∈ t.deposits)
  withdraws : ∀ r, PoolOf s q r.poolId → (r ∈ s.withdraws ↔ r ∈ t.withdraws)
  reserves : ∀ id, PoolOf s q id → ∀ d, s.bank.bal (.poolReserve id) d = t.bank.bal (.poolReserve id) d
  poolCoins : ∀ id, PoolOf s q id → s.bank.supply (.pool id) = t.bank.supply (.pool id)

/-- The collectors are not reserves of pools. -/
def CollectorsApart (p : Params) : Prop := ∀ id, p.dustCollector ≠ .poolReserve id ∧ p.feeCollector ≠ .poolReserve id

/-- The operation is about other markets than that of `q`. -/
def Elsewhere (q : Nat) (s : State) : Op → Prop
  | .createPair _ => True
  | .createPool m => m.pairId ≠ q
  | .createRangedPool m => m.pairId ≠ q
  | .deposit m => ¬ PoolOf s q m.poolId
  | .withdraw m => ¬ PoolOf s q m.poolId
  | .limitOrder m => m.pairId ≠ q
  | .marketOrder m => m.pairId ≠ q
  | .mmOrder m => m.pairId ≠ q
  | .cancelOrder m => m.pairId ≠ q
  | .cancelAllOrders m => m.pairIds ≠ [] ∧ q ∉ m.pairIds
  | .transfer _ dst _ => ∀ id, PoolOf s q id → dst ≠ .poolReserve id
  | .setParams _ => False
  | .beginBlock _ _ => False
  | .endBlock => False

/-- The operation is accepted, with this result; blocks are always accepted, unless the chain halts. -/
def accepted (env : Env) : Op → State → Option State
  | .createPair m, s => if m.validateBasic then createPair m s else none
  | .createPool m, s => if m.validateBasic then createPool m s else none
  | .createRangedPool m, s => if m.validateBasic then createRangedPoolMsg env m s else none
  | .deposit m, s => if m.validateBasic then depositMsg m s else none
  | .withdraw m, s => if m.validateBasic then withdrawMsg m s else none
  | .limitOrder m, s => if m.validateBasic then limitOrder m s else none
  | .marketOrder m, s => if m.validateBasic then marketOrder m s else none
  | .mmOrder m, s => if m.validateBasicMM then mmOrder m s else none
  | .cancelOrder m, s => if m.validateBasic then cancelOrder m s else none
  | .cancelAllOrders m, s => if m.validateBasic then cancelAllOrders m s else none
  | .transfer src dst cs, s => (s.bank.send (.user src) dst cs).map (fun b => { s with bank := b })
  | .setParams p, s => if p.validate then some { s with params := p } else none
  | .beginBlock h t, s => some (beginBlock h t s)
  | .endBlock, s => endBlock env s

/-- What a market can see: blocks, parameter changes, and all messages but those that create pairs and pools. -/
def Visible : Op → Prop
  | .createPair _ => False
  | .createPool _ => False
  | .createRangedPool _ => False
  | .setParams p => CollectorsApart p
  | _ => True

/-- A history from `s` to `s'` in which the market of `q` sees the operations `trace`: in between there are any number of operations
about other markets and of refused ones. -/
inductive Sees (env : Env) (q : Nat) : List Op → State → State → Prop
  | done (s : State) : Sees env q [] s s
  | elsewhere {trace : List Op} {s s1 s' : State} (op : Op) (he : Elsewhere q s op) (h : step env op s = some s1)
      (rest : Sees env q trace s1 s') : Sees env q trace s s'
  | refused {trace : List Op} {s s1 s' : State} (op : Op) (hr : accepted env op s = none) (h : step env op s = some s1)
      (rest : Sees env q trace s1 s') : Sees env q trace s s'
  | own {trace : List Op} {s s1 s' : State} (op : Op) (hv : Visible op) (ho : ¬ Elsewhere q s op) (ha : (accepted env op s).isSome = true)
      (h : step env op s = some s1) (rest : Sees env q trace s1 s') : Sees env q (op :: trace) s s'

/-- The operation is a message of the account `u` addressed to the market of `q` alone. -/
inductive Addressed (q : Nat) (s : State) (u : Nat) : Op → Prop
  | createPool (m : MsgCreatePool) (hq : m.pairId = q) (hu : m.creator = u) : Addressed q s u (.createPool m)
  | createRangedPool (m : MsgCreateRangedPool) (hq : m.pairId = q) (hu : m.creator = u) : Addressed q s u (.createRangedPool m)
  | deposit (m : MsgDeposit) (hq : PoolOf s q m.poolId) (hu : m.depositor = u) : Addressed q s u (.deposit m)
  | withdraw (m : MsgWithdraw) (hq : PoolOf s q m.poolId) (hu : m.withdrawer = u) : Addressed q s u (.withdraw m)
  | limitOrder (m : MsgLimitOrder) (hq : m.pairId = q) (hu : m.orderer = u) : Addressed q s u (.limitOrder m)
  | marketOrder (m : MsgMarketOrder) (hq : m.pairId = q) (hu : m.orderer = u) : Addressed q s u (.marketOrder m)
  | mmOrder (m : MsgLimitOrder) (hq : m.pairId = q) (hu : m.orderer = u) : Addressed q s u (.mmOrder m)
  | cancelOrder (m : MsgCancelOrder) (hq : m.pairId = q) (hu : m.orderer = u) : Addressed q s u (.cancelOrder m)
  | cancelAllOrders (m : MsgCancelAllOrders) (hq : m.pairIds = [q]) (hu : m.orderer = u) : Addressed q s u (.cancelAllOrders m)

end Verif.Spec

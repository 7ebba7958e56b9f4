import Verif.Model.KVStore
import Verif.Spec.Keys
import Verif.Spec.State
/-!
# The byte store along a history

`Written enc s kv`: the keeper got from an empty store to the records `s` by the groups of store calls it makes, and `kv` is
the byte store after these calls.  Each constructor cites the place in the code where the group of calls is made.
-/
namespace Verif.Spec
open Verif Verif.Dex Verif.Dex.KV Verif.Spec.Keys

/-- Different denoms and different accounts are spelled differently (those that are spelled with 1 to 255 bytes at all). -/
structure Spelling (enc : Enc) : Prop where
  denom : ∀ d d', Name (enc.denom d) → enc.denom d = enc.denom d' → d = d'
  addr : ∀ a a', Name (enc.addr a) → enc.addr a = enc.addr a' → a = a'

/-- A look-up does not panic, and finds `x` exactly if `P x`. -/
def Finds {α : Type} (res : Option (Option α)) (P : α → Prop) : Prop := ∃ r, res = some r ∧ ∀ x, r = some x ↔ P x

/-- All ids fit in 64 bits, and the denoms and accounts in the records are spelled with 1 to 255 bytes. -/
structure Storable (enc : Enc) (s : State) : Prop where
  lastPairId : s.lastPairId < 2 ^ 64
  lastPoolId : s.lastPoolId < 2 ^ 64
  pairs : ∀ p ∈ s.pairs, p.id < 2 ^ 64 ∧ Name (enc.denom p.base) ∧ Name (enc.denom p.quote)
  pools : ∀ p ∈ s.pools, p.id < 2 ^ 64 ∧ p.pairId < 2 ^ 64 ∧ Name (enc.addr (.poolReserve p.id))
  deposits : ∀ r ∈ s.deposits, r.poolId < 2 ^ 64 ∧ r.id < 2 ^ 64 ∧ Name (enc.addr (.user r.depositor))
  withdraws : ∀ r ∈ s.withdraws, r.poolId < 2 ^ 64 ∧ r.id < 2 ^ 64 ∧ Name (enc.addr (.user r.withdrawer))
  orders : ∀ o ∈ s.orders, o.pairId < 2 ^ 64 ∧ o.id < 2 ^ 64 ∧ Name (enc.addr (.user o.orderer))

/-- The records in the two states are the same (balances, parameters, height and time may differ). -/
structure SameRecords (s s' : State) : Prop where
  lastPairId : s'.lastPairId = s.lastPairId
  lastPoolId : s'.lastPoolId = s.lastPoolId
  pairs : s'.pairs = s.pairs
  pools : s'.pools = s.pools
  deposits : s'.deposits = s.deposits
  withdraws : s'.withdraws = s.withdraws
  orders : s'.orders = s.orders
  numMM : s'.numMM = s.numMM

/-- The byte store that the calls of the keeper produce along with the records. -/
inductive Written (enc : Enc) : State → Store → Prop
  /-- A new chain: the module genesis writes only parameters, which are kept elsewhere (x/dex/module/genesis.go). -/
  | genesis {s : State} (h : Genesis s) : Written enc s []
  /-- No store call. -/
  | idle {s s' : State} {kv : Store} (h : Written enc s kv) (hs : SameRecords s s') : Written enc s' kv
  /-- `CreatePair` (x/dex/keeper/pair.go:15, :51-54). -/
  | pairCreated {s : State} {kv : Store} (p : Pair) (h : Written enc s kv) (hid : p.id = s.lastPairId + 1)
      (hnew : ∀ q ∈ s.pairs, ¬ (q.base = p.base ∧ q.quote = p.quote)) (hfit : p.id < 2 ^ 64)
      (hb : Name (enc.denom p.base)) (hq : Name (enc.denom p.quote)) :
      Written enc ({ s with lastPairId := p.id }.setPair p)
        (setPairLookupIndex enc p.quote p.base p.id (setPairLookupIndex enc p.base p.quote p.id
          (setPairIndex enc p.base p.quote p.id (KV.setPair p (setLastPairId p.id kv)))))
  /-- Next order id, or end of a batch (x/dex/keeper/pair.go:23, swap.go:347). -/
  | pairSaved {s : State} {kv : Store} (old p : Pair) (h : Written enc s kv) (ho : old ∈ s.pairs)
      (hs : p.id = old.id ∧ p.base = old.base ∧ p.quote = old.quote) : Written enc (s.setPair p) (KV.setPair p kv)
  /-- `CreatePool`, `CreateRangedPool` (x/dex/keeper/pool.go:19, :132-134, :240-242). -/
  | poolCreated {s : State} {kv kv' : Store} (p : PoolRec) (h : Written enc s kv) (hid : p.id = s.lastPoolId + 1)
      (hfit : p.id < 2 ^ 64) (hfit' : p.pairId < 2 ^ 64) (ha : Name (enc.addr (.poolReserve p.id)))
      (hk : setPoolByReserveIndex enc p (KV.setPool p (setLastPoolId p.id kv)) = some kv') :
      Written enc ({ s with lastPoolId := p.id }.setPool p) (setPoolsByPairIndex p kv')
  /-- Next request id, or disabling (x/dex/keeper/pool.go:28, :37, :69). -/
  | poolSaved {s : State} {kv : Store} (old p : PoolRec) (h : Written enc s kv) (ho : old ∈ s.pools)
      (hs : p.id = old.id ∧ p.pairId = old.pairId) : Written enc (s.setPool p) (KV.setPool p kv)
  /-- `Deposit` (x/dex/keeper/pool.go:330-331). -/
  | depositCreated {s : State} {kv kv' : Store} (r : DepReq) (h : Written enc s kv)
      (hnew : ∀ q ∈ s.deposits, ¬ (q.poolId = r.poolId ∧ q.id = r.id))
      (hfit : r.poolId < 2 ^ 64 ∧ r.id < 2 ^ 64) (ha : Name (enc.addr (.user r.depositor)))
      (hk : setDepositRequestIndex enc r (setDepositRequest r kv) = some kv') : Written enc (s.setDeposit r) kv'
  /-- `FinishDepositRequest` (x/dex/keeper/pool.go:463). -/
  | depositSaved {s : State} {kv : Store} (old r : DepReq) (h : Written enc s kv) (ho : old ∈ s.deposits)
      (hs : r.poolId = old.poolId ∧ r.id = old.id ∧ r.depositor = old.depositor) :
      Written enc (s.setDeposit r) (setDepositRequest r kv)
  /-- `DeleteOutdatedRequests` (x/dex/keeper/batch.go:62). -/
  | depositDeleted {s : State} {kv kv' : Store} (r : DepReq) (h : Written enc s kv) (hr : r ∈ s.deposits)
      (hk : deleteDepositRequest enc r kv = some kv') :
      Written enc { s with deposits := s.deposits.filter (fun q => ¬ (q.poolId = r.poolId ∧ q.id = r.id)) } kv'
  /-- `Withdraw` (x/dex/keeper/pool.go:378-379). -/
  | withdrawCreated {s : State} {kv kv' : Store} (r : WdReq) (h : Written enc s kv)
      (hnew : ∀ q ∈ s.withdraws, ¬ (q.poolId = r.poolId ∧ q.id = r.id))
      (hfit : r.poolId < 2 ^ 64 ∧ r.id < 2 ^ 64) (ha : Name (enc.addr (.user r.withdrawer)))
      (hk : setWithdrawRequestIndex enc r (setWithdrawRequest r kv) = some kv') : Written enc (s.setWithdraw r) kv'
  /-- `FinishWithdrawRequest` (x/dex/keeper/pool.go:552). -/
  | withdrawSaved {s : State} {kv : Store} (old r : WdReq) (h : Written enc s kv) (ho : old ∈ s.withdraws)
      (hs : r.poolId = old.poolId ∧ r.id = old.id ∧ r.withdrawer = old.withdrawer) :
      Written enc (s.setWithdraw r) (setWithdrawRequest r kv)
  /-- `DeleteOutdatedRequests` (x/dex/keeper/batch.go:68). -/
  | withdrawDeleted {s : State} {kv kv' : Store} (r : WdReq) (h : Written enc s kv) (hr : r ∈ s.withdraws)
      (hk : deleteWithdrawRequest enc r kv = some kv') :
      Written enc { s with withdraws := s.withdraws.filter (fun q => ¬ (q.poolId = r.poolId ∧ q.id = r.id)) } kv'
  /-- Placing an order (x/dex/keeper/swap.go:129-130). -/
  | orderCreated {s : State} {kv kv' : Store} (o : OrderRec) (h : Written enc s kv)
      (hnew : ∀ q ∈ s.orders, ¬ (q.pairId = o.pairId ∧ q.id = o.id))
      (hfit : o.pairId < 2 ^ 64 ∧ o.id < 2 ^ 64) (ha : Name (enc.addr (.user o.orderer)))
      (hk : setOrderIndex enc o (KV.setOrder o kv) = some kv') : Written enc (s.setOrder o) kv'
  /-- Status changes, fills, `FinishOrder` (x/dex/keeper/swap.go:306, :435, :513). -/
  | orderSaved {s : State} {kv : Store} (old o : OrderRec) (h : Written enc s kv) (ho : old ∈ s.orders)
      (hs : o.pairId = old.pairId ∧ o.id = old.id ∧ o.orderer = old.orderer) :
      Written enc (s.setOrder o) (KV.setOrder o kv)
  /-- `DeleteOutdatedRequests` (x/dex/keeper/batch.go:74). -/
  | orderDeleted {s : State} {kv kv' : Store} (o : OrderRec) (h : Written enc s kv) (ho : o ∈ s.orders)
      (hk : deleteOrder enc o kv = some kv') :
      Written enc { s with orders := s.orders.filter (fun q => ¬ (q.pairId = o.pairId ∧ q.id = o.id)) } kv'
  /-- The counter of market-making orders (x/dex/keeper/swap.go:191, :520). -/
  | counterSaved {s : State} {kv kv' : Store} (orderer pairId n : Nat) (h : Written enc s kv) (hfit : pairId < 2 ^ 64)
      (ha : Name (enc.addr (.user orderer))) (hk : setNumMMOrders enc orderer pairId (UInt32.ofNat n) kv = some kv') :
      Written enc (s.setNumMM orderer pairId (some n)) kv'
  /-- The last of them is gone (x/dex/keeper/swap.go:518). -/
  | counterDeleted {s : State} {kv kv' : Store} (orderer pairId : Nat) (h : Written enc s kv) (hfit : pairId < 2 ^ 64)
      (ha : Name (enc.addr (.user orderer))) (hk : deleteNumMMOrders enc orderer pairId kv = some kv') :
      Written enc (s.setNumMM orderer pairId none) kv'

end Verif.Spec

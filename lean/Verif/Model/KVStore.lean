import Verif.Model.Keys
import Verif.Model.Keeper
/-!
# The key-value store under the keeper: x/dex/keeper/store.go on byte keys

`Verif/Model/Store.lean` keeps the records of each kind in a sorted list and computes secondary indexes by filtering.  This
file models what store.go does: one store of byte keys with explicit index entries, maintained by separate calls and read
through prefix iterators.  `C68` relates the two.

Simplified: values are typed instead of protobuf bytes (`none` = `MustUnmarshal` of a value of another type panics).  The
iterator yields the entries present when it is created.  An iteration returns the list of records handed to the callback,
in order; `none` in place of a record is the zero record that the code passes on when an index entry has no record.
-/
namespace Verif.Dex.KV
open Verif Verif.Dex Verif.Dex.Keys

/-- What is stored under a key. -/
inductive Val where
  | id (n : UInt64)
  | empty
  | count (n : UInt64)
  | pair (p : Pair)
  | pool (p : PoolRec)
  | deposit (r : DepReq)
  | withdraw (r : WdReq)
  | order (o : OrderRec)
  deriving DecidableEq

/-- A store: entries in increasing key order (cosmossdk.io/store, `types.KVStore`). -/
abbrev Store := List (Bytes × Val)

/-- `store.Get` (x/dex/keeper/store.go:17, :42, :53, ...). -/
def get : Store → Bytes → Option Val
  | [], _ => none
  | (k', v) :: kv, k => if k' = k then some v else get kv k

/-- `store.Set` (x/dex/keeper/store.go:30, :67, :74, ...). -/
def set : Store → Bytes → Val → Store
  | [], k, v => [(k, v)]
  | (k', v') :: kv, k, v =>
    if k' = k then (k, v) :: kv
    else if k < k' then (k, v) :: (k', v') :: kv
    else (k', v') :: set kv k v

/-- `store.Delete` (x/dex/keeper/store.go:355, :361, :448, :569, :594). -/
def delete (kv : Store) (k : Bytes) : Store := kv.filter (fun e => e.1 ≠ k)

/-- Below the end of an iteration; a nil end is no bound (cosmossdk.io/store). -/
def below : Option Bytes → Bytes → Bool
  | none, _ => true
  | some q, k => decide (k < q)

/-- `store.Iterator(start, end)` (cosmossdk.io/store): keys in `[start, end)`. -/
def iterator (kv : Store) (start : Bytes) (stop : Option Bytes) : Store :=
  kv.filter (fun e => !decide (e.1 < start) && below stop e.1)

/-- `PrefixEndBytes` (cosmossdk.io/store/types/utils.go): the prefix with its last byte other than 255 increased and the
rest cut off; nil if there is none.  On the reversed prefix. -/
def prefixEndRev : Bytes → Option Bytes
  | [] => none
  | b :: bs => if b = 255 then prefixEndRev bs else some ((b + 1) :: bs).reverse

/-- `KVStorePrefixIterator` (cosmossdk.io/store/types; used at x/dex/keeper/store.go:98, :213, :230, ...). -/
def scan (kv : Store) (pre : Bytes) : Store := iterator kv pre (prefixEndRev pre.reverse)

/-- How denoms and accounts are spelled as bytes: denom strings and addresses (`GetReserveAddressAcc`, `GetOrdererAcc`, ...,
x/dex/types/pool.go, request.go). -/
structure Enc where
  denom : Denom → Bytes
  addr : Addr → Bytes

/-- A Go `uint64` id. -/
def u64 (n : Nat) : UInt64 := UInt64.ofNat n

/-! ## Writing -/

/-- `SetLastPairId` (x/dex/keeper/store.go:27-31). -/
def setLastPairId (id : Nat) (kv : Store) : Store := set kv lastPairIdKey (.id (u64 id))
/-- `SetLastPoolId` (x/dex/keeper/store.go:142-146). -/
def setLastPoolId (id : Nat) (kv : Store) : Store := set kv lastPoolIdKey (.id (u64 id))
/-- `SetPair` (x/dex/keeper/store.go:64-68). -/
def setPair (p : Pair) (kv : Store) : Store := set kv (getPairKey (u64 p.id)) (.pair p)
/-- `SetPairIndex` (x/dex/keeper/store.go:71-75). -/
def setPairIndex (enc : Enc) (base quote : Denom) (id : Nat) (kv : Store) : Store :=
  set kv (getPairIndexKey (enc.denom base) (enc.denom quote)) (.id (u64 id))
/-- `SetPairLookupIndex` (x/dex/keeper/store.go:83-86). -/
def setPairLookupIndex (enc : Enc) (a b : Denom) (id : Nat) (kv : Store) : Store :=
  set kv (getPairsByDenomsIndexKey (enc.denom a) (enc.denom b) (u64 id)) .empty
/-- `SetPool` (x/dex/keeper/store.go:179-183). -/
def setPool (p : PoolRec) (kv : Store) : Store := set kv (getPoolKey (u64 p.id)) (.pool p)
/-- `SetPoolByReserveIndex` (x/dex/keeper/store.go:186-190). -/
def setPoolByReserveIndex (enc : Enc) (p : PoolRec) (kv : Store) : Option Store :=
  (getPoolByReserveAddressIndexKey (enc.addr (.poolReserve p.id))).map fun k => set kv k (.id (u64 p.id))
/-- `SetPoolsByPairIndex` (x/dex/keeper/store.go:198-201). -/
def setPoolsByPairIndex (p : PoolRec) (kv : Store) : Store :=
  set kv (getPoolsByPairIndexKey (u64 p.pairId) (u64 p.id)) .empty
/-- `SetDepositRequest` (x/dex/keeper/store.go:283-287). -/
def setDepositRequest (r : DepReq) (kv : Store) : Store :=
  set kv (getDepositRequestKey (u64 r.poolId) (u64 r.id)) (.deposit r)
/-- `SetDepositRequestIndex` (x/dex/keeper/store.go:289-292). -/
def setDepositRequestIndex (enc : Enc) (r : DepReq) (kv : Store) : Option Store :=
  (getDepositRequestIndexKey (enc.addr (.user r.depositor)) (u64 r.poolId) (u64 r.id)).map fun k => set kv k .empty
/-- `DeleteDepositRequest`, with `DeleteDepositRequestIndex` (x/dex/keeper/store.go:353-362). -/
def deleteDepositRequest (enc : Enc) (r : DepReq) (kv : Store) : Option Store :=
  (getDepositRequestIndexKey (enc.addr (.user r.depositor)) (u64 r.poolId) (u64 r.id)).map fun k =>
    delete (delete kv (getDepositRequestKey (u64 r.poolId) (u64 r.id))) k
/-- `SetWithdrawRequest` (x/dex/keeper/store.go:376-380). -/
def setWithdrawRequest (r : WdReq) (kv : Store) : Store :=
  set kv (getWithdrawRequestKey (u64 r.poolId) (u64 r.id)) (.withdraw r)
/-- `SetWithdrawRequestIndex` (x/dex/keeper/store.go:382-385). -/
def setWithdrawRequestIndex (enc : Enc) (r : WdReq) (kv : Store) : Option Store :=
  (getWithdrawRequestIndexKey (enc.addr (.user r.withdrawer)) (u64 r.poolId) (u64 r.id)).map fun k => set kv k .empty
/-- `DeleteWithdrawRequest`, with `DeleteWithdrawRequestIndex` (x/dex/keeper/store.go:446-455). -/
def deleteWithdrawRequest (enc : Enc) (r : WdReq) (kv : Store) : Option Store :=
  (getWithdrawRequestIndexKey (enc.addr (.user r.withdrawer)) (u64 r.poolId) (u64 r.id)).map fun k =>
    delete (delete kv (getWithdrawRequestKey (u64 r.poolId) (u64 r.id))) k
/-- `SetOrder` (x/dex/keeper/store.go:469-473). -/
def setOrder (o : OrderRec) (kv : Store) : Store := set kv (getOrderKey (u64 o.pairId) (u64 o.id)) (.order o)
/-- `SetOrderIndex` (x/dex/keeper/store.go:475-478). -/
def setOrderIndex (enc : Enc) (o : OrderRec) (kv : Store) : Option Store :=
  (getOrderIndexKey (enc.addr (.user o.orderer)) (u64 o.pairId) (u64 o.id)).map fun k => set kv k .empty
/-- `DeleteOrder`, with `DeleteOrderIndex` (x/dex/keeper/store.go:567-576). -/
def deleteOrder (enc : Enc) (o : OrderRec) (kv : Store) : Option Store :=
  (getOrderIndexKey (enc.addr (.user o.orderer)) (u64 o.pairId) (u64 o.id)).map fun k =>
    delete (delete kv (getOrderKey (u64 o.pairId) (u64 o.id))) k
/-- `SetNumMMOrders` (x/dex/keeper/store.go:587-590); the count is a `uint32`. -/
def setNumMMOrders (enc : Enc) (orderer pairId : Nat) (n : UInt32) (kv : Store) : Option Store :=
  (getNumMMOrdersKey (enc.addr (.user orderer)) (u64 pairId)).map fun k => set kv k (.count n.toUInt64)
/-- `DeleteNumMMOrders` (x/dex/keeper/store.go:592-595). -/
def deleteNumMMOrders (enc : Enc) (orderer pairId : Nat) (kv : Store) : Option Store :=
  (getNumMMOrdersKey (enc.addr (.user orderer)) (u64 pairId)).map fun k => delete kv k

/-! ## Reading

The outer `Option` is a panic, the inner one the `found` flag. -/

/-- `GetLastPairId` (x/dex/keeper/store.go:15-25). -/
def getLastPairId (kv : Store) : Option UInt64 :=
  match get kv lastPairIdKey with
  | none => some 0
  | some (.id n) => some n
  | some _ => none
/-- `GetLastPoolId` (x/dex/keeper/store.go:130-140). -/
def getLastPoolId (kv : Store) : Option UInt64 :=
  match get kv lastPoolIdKey with
  | none => some 0
  | some (.id n) => some n
  | some _ => none
/-- `MustUnmarshalPair` (x/dex/types/pair.go). -/
def asPair : Val → Option Pair | .pair p => some p | _ => none
/-- `MustUnmarshalPool` (x/dex/types/pool.go). -/
def asPool : Val → Option PoolRec | .pool p => some p | _ => none
/-- `MustUnmarshalDepositRequest` (x/dex/types/request.go). -/
def asDeposit : Val → Option DepReq | .deposit r => some r | _ => none
/-- `MustUnmarshalWithdrawRequest` (x/dex/types/request.go). -/
def asWithdraw : Val → Option WdReq | .withdraw r => some r | _ => none
/-- `MustUnmarshalOrder` (x/dex/types/request.go). -/
def asOrder : Val → Option OrderRec | .order o => some o | _ => none
/-- `UInt64Value` (x/dex/keeper/store.go:57-58). -/
def asId : Val → Option UInt64 | .id n => some n | _ => none
/-- `sdk.BigEndianToUint64` of a counter (x/dex/keeper/store.go:584). -/
def asCount : Val → Option UInt32 | .count n => some n.toUInt32 | _ => none

/-- `bz := store.Get(key)`, nil if absent, else unmarshal (x/dex/keeper/store.go:42-47, :157-162, ...). -/
def fetch {α : Type} (read : Val → Option α) (kv : Store) (k : Bytes) : Option (Option α) :=
  match get kv k with
  | none => some none
  | some v => (read v).map some

/-- `GetPair` (x/dex/keeper/store.go:40-48). -/
def getPair (kv : Store) (id : UInt64) : Option (Option Pair) := fetch asPair kv (getPairKey id)
/-- `GetPairByDenoms` (x/dex/keeper/store.go:51-61). -/
def getPairByDenoms (enc : Enc) (kv : Store) (base quote : Denom) : Option (Option Pair) :=
  match fetch asId kv (getPairIndexKey (enc.denom base) (enc.denom quote)) with
  | none => none
  | some none => some none
  | some (some id) => getPair kv id
/-- `GetPool` (x/dex/keeper/store.go:155-163). -/
def getPool (kv : Store) (id : UInt64) : Option (Option PoolRec) := fetch asPool kv (getPoolKey id)
/-- `GetPoolByReserveAddress` (x/dex/keeper/store.go:166-176). -/
def getPoolByReserveAddress (enc : Enc) (kv : Store) (a : Addr) : Option (Option PoolRec) :=
  (getPoolByReserveAddressIndexKey (enc.addr a)).bind fun k =>
    match fetch asId kv k with
    | none => none
    | some none => some none
    | some (some id) => getPool kv id
/-- `GetDepositRequest` (x/dex/keeper/store.go:272-280). -/
def getDepositRequest (kv : Store) (poolId id : UInt64) : Option (Option DepReq) :=
  fetch asDeposit kv (getDepositRequestKey poolId id)
/-- `GetWithdrawRequest` (x/dex/keeper/store.go:365-373). -/
def getWithdrawRequest (kv : Store) (poolId id : UInt64) : Option (Option WdReq) :=
  fetch asWithdraw kv (getWithdrawRequestKey poolId id)
/-- `GetOrder` (x/dex/keeper/store.go:458-466). -/
def getOrder (kv : Store) (pairId id : UInt64) : Option (Option OrderRec) := fetch asOrder kv (getOrderKey pairId id)
/-- `GetNumMMOrders` (x/dex/keeper/store.go:578-585). -/
def getNumMMOrders (enc : Enc) (kv : Store) (orderer : Nat) (pairId : UInt64) : Option UInt32 :=
  (getNumMMOrdersKey (enc.addr (.user orderer)) pairId).bind fun k =>
    match get kv k with
    | none => some 0
    | some v => asCount v

/-- One pass of an iterator whose body reads each entry with `f`. -/
def visit {β : Type} (f : Bytes × Val → Option β) (l : Store) : Option (List β) := l.mapM f

/-- `IterateAllPairs`, `GetAllPairs` (x/dex/keeper/store.go:96-121). -/
def allPairs (kv : Store) : Option (List Pair) := visit (fun e => asPair e.2) (scan kv pairKeyPrefix)
/-- `IterateAllPools`, `GetAllPools` (x/dex/keeper/store.go:211-256). -/
def allPools (kv : Store) : Option (List PoolRec) := visit (fun e => asPool e.2) (scan kv poolKeyPrefix)
/-- `IteratePoolsByPair`, `GetPoolsByPair` (x/dex/keeper/store.go:228-245, :259-265). -/
def poolsByPair (kv : Store) (pairId : UInt64) : Option (List (Option PoolRec)) :=
  visit (fun e => (parsePoolsByPairIndexKey e.1).bind (getPool kv)) (scan kv (getPoolsByPairIndexKeyPrefix pairId))
/-- `IterateAllDepositRequests` (x/dex/keeper/store.go:296-311, :334-341). -/
def allDeposits (kv : Store) : Option (List DepReq) :=
  visit (fun e => asDeposit e.2) (scan kv depositRequestKeyPrefix)
/-- `IterateDepositRequestsByDepositor` (x/dex/keeper/store.go:315-331, :344-350). -/
def depositsBy (enc : Enc) (kv : Store) (a : Addr) : Option (List (Option DepReq)) :=
  (getDepositRequestIndexKeyPrefix (enc.addr a)).bind fun pre =>
    visit (fun e => (parseDepositRequestIndexKey e.1).bind fun x => getDepositRequest kv x.2.1 x.2.2) (scan kv pre)
/-- `IterateAllWithdrawRequests` (x/dex/keeper/store.go:389-404, :427-434). -/
def allWithdraws (kv : Store) : Option (List WdReq) :=
  visit (fun e => asWithdraw e.2) (scan kv withdrawRequestKeyPrefix)
/-- `IterateWithdrawRequestsByWithdrawer` (x/dex/keeper/store.go:408-424, :437-443). -/
def withdrawsBy (enc : Enc) (kv : Store) (a : Addr) : Option (List (Option WdReq)) :=
  (getWithdrawRequestIndexKeyPrefix (enc.addr a)).bind fun pre =>
    visit (fun e => (parseWithdrawRequestIndexKey e.1).bind fun x => getWithdrawRequest kv x.2.1 x.2.2) (scan kv pre)
/-- `IterateAllOrders` (x/dex/keeper/store.go:482-497, :539-546). -/
def allOrders (kv : Store) : Option (List OrderRec) := visit (fun e => asOrder e.2) (scan kv orderKeyPrefix)
/-- `IterateOrdersByPair` (x/dex/keeper/store.go:501-516, :549-555). -/
def ordersByPair (kv : Store) (pairId : UInt64) : Option (List OrderRec) :=
  visit (fun e => asOrder e.2) (scan kv (getOrdersByPairKeyPrefix pairId))
/-- `IterateOrdersByOrderer` (x/dex/keeper/store.go:520-536, :558-564). -/
def ordersBy (enc : Enc) (kv : Store) (a : Addr) : Option (List (Option OrderRec)) :=
  (getOrderIndexKeyPrefix (enc.addr a)).bind fun pre =>
    visit (fun e => (parseOrderIndexKey e.1).bind fun x => getOrder kv x.2.1 x.2.2) (scan kv pre)
/-- `IterateAllNumMMOrders` (x/dex/keeper/store.go:597-608). -/
def allNumMM (kv : Store) : Option (List ((Bytes × UInt64) × UInt32)) :=
  visit (fun e => (parseNumMMOrdersKey e.1).bind fun x => (asCount e.2).map fun n => (x, n))
    (scan kv numMMOrdersKeyPrefix)

end Verif.Dex.KV

import Verif.Model.KVStore
/-!
# The queries of the module that return records: x/dex/keeper/grpc_query.go

With `query.FilteredPaginate` of the SDK (cosmos-sdk types/query/filtered_pagination.go, v0.50, from memory).  `none` is an
error or a panic.  Simplified: an account is given as `Addr`, not as a bech32 string; the denoms of a request are valid
(`sdk.ValidateDenom`); the response of the pool queries is the pool, its balances and the supply of its pool coin.
`OrderBooks` is in `Verif/Model/OrderBookQuery.lean`.
-/
namespace Verif.Dex.Query
open Verif Verif.Dex Verif.Dex.Keys Verif.Dex.KV

/-- `query.PageRequest` (cosmos-sdk types/query/pagination.proto). -/
structure PageReq where
  key : Bytes := []
  offset : UInt64 := 0
  limit : UInt64 := 0
  countTotal : Bool := false
  reverse : Bool := false

/-- `query.PageResponse` with the accumulated records; `nextKey = none` is nil. -/
structure PageRes (α : Type) where
  items : List α
  nextKey : Option Bytes
  total : UInt64

/-- `prefix.NewStore` (cosmossdk.io/store/prefix): the entries under a prefix, which is cut off the keys. -/
def prefixStore (kv : Store) (pre : Bytes) : Store := (scan kv pre).map (fun e => (e.1.drop pre.length, e.2))

/-- `initPageRequestDefaults` (cosmos-sdk types/query/pagination.go). -/
def defaults (r : PageReq) : PageReq := if r.limit = 0 then { r with limit := 100, countTotal := true } else r

/-- `getIterator` (cosmos-sdk types/query/pagination.go): the entries from the key on; backwards, those up to and including
the key (computed as those before the next key; a panic if the key is that of the last entry). -/
def entriesFrom (store : Store) (key : Bytes) (reverse : Bool) : Option Store :=
  if reverse then
    if key = [] then some store.reverse
    else
      match store.filter (fun e => !decide (e.1 < key)) with
      | [] => some store.reverse
      | [_] => none
      | _ :: e :: _ => some (store.filter (fun x => decide (x.1 < e.1))).reverse
  else some (store.filter (fun e => !decide (e.1 < key)))

/-- The loop of a request with a key (cosmos-sdk types/query/filtered_pagination.go).  `f` is `onResult`: `none` an error or
panic, `some none` no hit. -/
def pageByKey {α : Type} (f : Bytes × Val → Option (Option α)) (limit : UInt64) : UInt64 → Store → Option (List α × Option Bytes)
  | _, [] => some ([], none)
  | n, e :: es =>
    if n = limit then some ([], some e.1)
    else match f e with
      | none => none
      | some none => pageByKey f limit n es
      | some (some x) => (pageByKey f limit (n + 1) es).map fun r => (x :: r.1, r.2)

/-- The loop of a request with an offset (cosmos-sdk types/query/filtered_pagination.go), with `end` = offset + limit; all
numbers are `uint64` and wrap. -/
def pageByOffset {α : Type} (f : Bytes × Val → Option (Option α)) (offset stop : UInt64) (countTotal : Bool) :
    UInt64 → Option Bytes → Store → Option (List α × Option Bytes × UInt64)
  | n, nextKey, [] => some ([], nextKey, n)
  | n, nextKey, e :: es =>
    match f e with
    | none => none
    | some r =>
      let n' := if r.isSome then n + 1 else n
      let now := if offset ≤ n ∧ n < stop then r.toList else []
      if n' = stop + 1 then
        let nextKey' := if nextKey = none then some e.1 else nextKey
        if countTotal then (pageByOffset f offset stop countTotal n' nextKey' es).map fun x => (now ++ x.1, x.2)
        else some (now, nextKey', n')
      else (pageByOffset f offset stop countTotal n' nextKey es).map fun x => (now ++ x.1, x.2)

/-- `FilteredPaginate` (cosmos-sdk types/query/filtered_pagination.go). -/
def paginate {α : Type} (f : Bytes × Val → Option (Option α)) (store : Store) (req : PageReq) : Option (PageRes α) :=
  let r := defaults req
  if 0 < r.offset ∧ r.key ≠ [] then none
  else (entriesFrom store r.key r.reverse).bind fun es =>
    if r.key ≠ [] then (pageByKey f r.limit 0 es).map fun x => ⟨x.1, x.2, 0⟩
    else (pageByOffset f r.offset (r.offset + r.limit) r.countTotal 0 none es).map fun x =>
      ⟨x.1, x.2.1, if r.countTotal then x.2.2 else 0⟩

/-- A record found through an index.  Simplified: an index entry without its record gives an error, in the code an empty
record (by C68 there is no such entry). -/
def present {α : Type} (r : Option (Option α)) : Option (Option α) := r.bind (fun x => x.map some)

/-- `Pairs` (x/dex/keeper/grpc_query.go:29-88). -/
def pairs (enc : Enc) (kv : Store) (denoms : List Denom) (req : PageReq) : Option (PageRes Pair) :=
  match denoms with
  | [] => paginate (fun e => (asPair e.2).map some) (prefixStore kv pairKeyPrefix) req
  | [a] =>
    let pre := getPairsByDenomIndexKeyPrefix (enc.denom a)
    paginate (fun e => (parsePairsByDenomsIndexKey (pre ++ e.1)).bind fun x => present (KV.getPair kv x.2.2)) (prefixStore kv pre) req
  | [a, b] =>
    let pre := getPairsByDenomsIndexKeyPrefix (enc.denom a) (enc.denom b)
    paginate (fun e => (parsePairsByDenomsIndexKey (pre ++ e.1)).bind fun x => present (KV.getPair kv x.2.2)) (prefixStore kv pre) req
  | _ => none

/-- `Pair` (x/dex/keeper/grpc_query.go:91-108). -/
def pair (kv : Store) (id : UInt64) : Option Pair := if id = 0 then none else (KV.getPair kv id).join

/-- `types.PoolResponse` (x/dex/types/util.go:71-89); the other fields are those of the pool. -/
structure PoolRes where
  pool : PoolRec
  quote : Int
  base : Int
  supply : Int
  price : Option Int
  deriving DecidableEq

/-- `NewPoolResponse` with `getPoolBalances` and `GetPoolCoinSupply` (x/dex/types/util.go:65-90, x/dex/keeper/pool.go:53-64). -/
def poolResponse (env : Env) (bank : Bank) (pool : PoolRec) (pair : Pair) : Option PoolRes :=
  let rx := bank.bal (.poolReserve pool.id) pair.quote
  let ry := bank.bal (.poolReserve pool.id) pair.base
  let ps := bank.supply (.pool pool.id)
  if pool.disabled then some ⟨pool, rx, ry, ps, none⟩
  else ((ammPool env pool rx ry 0).bind (·.price)).map fun p => ⟨pool, rx, ry, ps, some p⟩

/-- The response for a pool of the page, with its pair (x/dex/keeper/grpc_query.go:138-145, :171-174). -/
def withPair (env : Env) (bank : Bank) (kv : Store) (pool : PoolRec) : Option PoolRes :=
  ((KV.getPair kv (u64 pool.pairId)).join).bind (poolResponse env bank pool)

/-- `Pools` (x/dex/keeper/grpc_query.go:111-185); `disabled = none` is the empty string, `pairId = 0` all pairs.  Simplified:
for a given pair id, the pair is read per pool and not once. -/
def pools (env : Env) (bank : Bank) (kv : Store) (pairId : UInt64) (disabled : Option Bool) (req : PageReq) : Option (PageRes PoolRes) :=
  let wanted (p : PoolRec) : Option PoolRec := if disabled = none ∨ disabled = some p.disabled then some p else none
  let page :=
    if pairId = 0 then paginate (fun e => (asPool e.2).map wanted) (prefixStore kv poolKeyPrefix) req
    else
      let pre := getPoolsByPairIndexKeyPrefix pairId
      paginate (fun e => (parsePoolsByPairIndexKey (pre ++ e.1)).bind fun id => ((KV.getPool kv id).join).map wanted) (prefixStore kv pre) req
  page.bind fun r => (r.items.mapM (withPair env bank kv)).map fun l => ⟨l, r.nextKey, r.total⟩

/-- `Pool` (x/dex/keeper/grpc_query.go:188-209). -/
def pool (env : Env) (bank : Bank) (kv : Store) (id : UInt64) : Option PoolRes :=
  if id = 0 then none else ((KV.getPool kv id).join).bind (withPair env bank kv)

/-- `PoolByReserveAddress` (x/dex/keeper/grpc_query.go:212-236). -/
def poolByReserveAddress (env : Env) (enc : Enc) (bank : Bank) (kv : Store) (a : Addr) : Option PoolRes :=
  ((KV.getPoolByReserveAddress enc kv a).join).bind (withPair env bank kv)

/-- `PoolByPoolCoinDenom` (x/dex/keeper/grpc_query.go:239-262). -/
def poolByPoolCoinDenom (env : Env) (bank : Bank) (kv : Store) (denom : List Char) : Option PoolRes :=
  (parsePoolCoinDenom denom).bind fun id => ((KV.getPool kv id).join).bind (withPair env bank kv)

/-- `DepositRequests` (x/dex/keeper/grpc_query.go:265-301). -/
def depositRequests (kv : Store) (poolId : UInt64) (req : PageReq) : Option (PageRes DepReq) :=
  if poolId = 0 then none
  else paginate (fun e => (asDeposit e.2).map fun r => if u64 r.poolId = poolId then some r else none)
    (prefixStore kv depositRequestKeyPrefix) req

/-- `DepositRequest` (x/dex/keeper/grpc_query.go:304-325). -/
def depositRequest (kv : Store) (poolId id : UInt64) : Option DepReq :=
  if poolId = 0 then none else if id = 0 then none else (KV.getDepositRequest kv poolId id).join

/-- `WithdrawRequests` (x/dex/keeper/grpc_query.go:328-364). -/
def withdrawRequests (kv : Store) (poolId : UInt64) (req : PageReq) : Option (PageRes WdReq) :=
  if poolId = 0 then none
  else paginate (fun e => (asWithdraw e.2).map fun r => if u64 r.poolId = poolId then some r else none)
    (prefixStore kv withdrawRequestKeyPrefix) req

/-- `WithdrawRequest` (x/dex/keeper/grpc_query.go:367-388). -/
def withdrawRequest (kv : Store) (poolId id : UInt64) : Option WdReq :=
  if poolId = 0 then none else if id = 0 then none else (KV.getWithdrawRequest kv poolId id).join

/-- `Orders` (x/dex/keeper/grpc_query.go:391-427). -/
def orders (kv : Store) (pairId : UInt64) (req : PageReq) : Option (PageRes OrderRec) :=
  if pairId = 0 then none
  else paginate (fun e => (asOrder e.2).map fun o => if u64 o.pairId = pairId then some o else none) (prefixStore kv orderKeyPrefix) req

/-- `Order` (x/dex/keeper/grpc_query.go:430-451). -/
def order (kv : Store) (pairId id : UInt64) : Option OrderRec :=
  if pairId = 0 then none else if id = 0 then none else (KV.getOrder kv pairId id).join

/-- `OrdersByOrderer` (x/dex/keeper/grpc_query.go:454-489). -/
def ordersByOrderer (enc : Enc) (kv : Store) (orderer : Addr) (pairId : UInt64) (req : PageReq) : Option (PageRes OrderRec) :=
  (getOrderIndexKeyPrefix (enc.addr orderer)).bind fun pre =>
    paginate (fun e => (parseOrderIndexKey (pre ++ e.1)).bind fun x =>
      if pairId ≠ 0 ∧ x.2.1 ≠ pairId then some none else present (KV.getOrder kv x.2.1 x.2.2)) (prefixStore kv pre) req

/-- `NumMMOrders` (x/dex/keeper/grpc_query.go:584-603). -/
def numMMOrders (enc : Enc) (kv : Store) (orderer : Nat) (pairId : UInt64) : Option UInt32 :=
  if pairId = 0 then none else KV.getNumMMOrders enc kv orderer pairId

end Verif.Dex.Query

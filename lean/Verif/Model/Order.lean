import Verif.Model.Dec
/-!
# Orders: model of x/dex/amm/order.go, x/dex/types/order.go and the order part of x/dex/amm/util.go

Go orders are pointers to mutable structs.  The model keeps a heap `Nat → Order`; a Go pointer is a `Nat`.
-/
namespace Verif.Amm
open Verif

/-- `OrderDirection` (x/dex/amm/order.go:17-23). -/
inductive Dir where
  | buy
  | sell
  deriving DecidableEq, Repr

/-- Which Go type implements the order: `UserOrder` (x/dex/types/order.go:26-32, with its order id and batch id) or
`PoolOrder` (x/dex/types/order.go:86-91, with its pool id).  The bare `BaseOrder` of x/dex/amm/order.go:71-81 is used
on its own only by tests and by the simulation, and is not modelled as a separate kind. -/
inductive OKind where
  | user (orderId batchId : Nat)
  | pool (poolId : Nat)
  deriving DecidableEq, Repr

/-- `BaseOrder` (x/dex/amm/order.go:71-81) together with the identifying part of `UserOrder`/`PoolOrder`. -/
structure Order where
  dir : Dir
  price : Int
  amount : Int
  offer : Int
  openAmt : Int
  paid : Int
  received : Int
  kind : OKind
  deriving DecidableEq, Repr

/-- `NewBaseOrder` (x/dex/amm/order.go:84-94). -/
def newBaseOrder (dir : Dir) (price amt offerCoinAmt : Int) (kind : OKind) : Order :=
  { dir, price, amount := amt, offer := offerCoinAmt, openAmt := amt, paid := 0, received := 0, kind }

/-- `GetBatchId`: 0 for `BaseOrder`/`PoolOrder` (x/dex/amm/order.go:101-103), the stored id for `UserOrder`
(x/dex/types/order.go:63-65). -/
def Order.batchId (o : Order) : Nat :=
  match o.kind with
  | .user _ b => b
  | .pool _ => 0

/-- `IsMatched` (x/dex/amm/order.go:143-145). -/
def Order.isMatched (o : Order) : Bool := o.openAmt < o.amount

/-- `HasPriority` of `UserOrder` (x/dex/types/order.go:67-79) and `PoolOrder` (x/dex/types/order.go:105-117); the
amount comparison is `BaseOrder.HasPriority` (x/dex/amm/order.go:149-151). -/
def Order.hasPriority (o other : Order) : Bool :=
  if o.amount ≠ other.amount then o.amount > other.amount
  else match o.kind, other.kind with
    | .user i _, .user j _ => i < j
    | .user _ _, .pool _ => true
    | .pool _, .user _ _ => false
    | .pool i, .pool j => i < j

/-- `price.MulInt(amt).Ceil().TruncateInt()`: quote coin a buyer pays (x/dex/amm/match.go:40, util.go:23). -/
def quoteCeil (price amt : Int) : Int := Dec.truncateInt (Dec.ceil (Dec.mulInt price amt))

/-- `price.MulInt(amt).TruncateInt()`: quote coin a seller receives (x/dex/amm/match.go:45). -/
def quoteFloor (price amt : Int) : Int := Dec.truncateInt (Dec.mulInt price amt)

/-- `OfferCoinAmount` (x/dex/amm/util.go:20-29). -/
def offerCoinAmount (dir : Dir) (price amt : Int) : Int :=
  match dir with
  | .buy => quoteCeil price amt
  | .sell => amt

/-- `NewPoolOrder` (x/dex/types/order.go:93-103). -/
def newPoolOrder (poolId : Nat) (dir : Dir) (price amt : Int) : Order :=
  newBaseOrder dir price amt (offerCoinAmount dir price amt) (.pool poolId)

/-- `MatchableAmount` (x/dex/amm/util.go:33-48), for a non-zero price (`QuoTruncate` by zero panics). -/
def matchableAmount (o : Order) (price : Int) : Int :=
  let m := match o.dir with
    | .buy => min o.openAmt (Dec.truncateInt (Dec.quoTruncate (Dec.ofInt (o.offer - o.paid)) price))
    | .sell => o.openAmt
  if quoteFloor price m = 0 then 0 else m

/-- `sort.Search(n, f)` of the Go standard library (used at x/dex/amm/util.go:81,112,120, orderbook.go:159, view.go):
binary search over `[i, j)`; `fuel` bounds the number of halvings. -/
def searchLoop (f : Nat → Bool) : Nat → Nat → Nat → Nat
  | 0, i, _ => i
  | fuel + 1, i, j =>
    if i < j then
      let h := (i + j) / 2
      if f h = false then searchLoop f fuel (h + 1) j else searchLoop f fuel i h
    else i

/-- `sort.Search(n, f)`. -/
def sortSearch (n : Nat) (f : Nat → Bool) : Nat := searchLoop f (n + 1) 0 n

/-- `sort.Search(len(l), func(i) { return p(l[i]) })`, the form in which the code uses it on slices. -/
def searchList {α : Type} (l : List α) (p : α → Bool) : Nat :=
  sortSearch l.length (fun j => match l[j]? with | some t => p t | none => true)

/-- Heap of orders: a Go `Order` pointer is a `Nat`. -/
abbrev Heap := Nat → Order

/-- `TotalAmount` (x/dex/amm/util.go:51-57). -/
def totalAmount (h : Heap) (ps : List Nat) : Int := ps.foldl (fun a i => a + (h i).amount) 0

/-- `TotalMatchableAmount` (x/dex/amm/util.go:60-66). -/
def totalMatchable (h : Heap) (ps : List Nat) (price : Int) : Int :=
  ps.foldl (fun a i => a + matchableAmount (h i) price) 0

/-- `OrderGroup` (x/dex/amm/util.go:69-72). -/
structure OrderGroup where
  batchId : Nat
  orders : List Nat
  deriving DecidableEq, Repr

/-- Search predicate of `GroupOrdersByBatchId` (x/dex/amm/util.go:81-89). -/
def groupPred (b gb : Nat) : Bool :=
  if b = 0 then gb == 0
  else if gb = 0 then true
  else b ≤ gb

/-- Body of the loop of `GroupOrdersByBatchId` (x/dex/amm/util.go:78-95).  The Go map from batch id to group is the
lookup in the group list itself (there is exactly one group per id in both). -/
def addToGroups (h : Heap) (groups : List OrderGroup) (i : Nat) : List OrderGroup :=
  let b := (h i).batchId
  if groups.any (fun g => g.batchId == b) then
    groups.map (fun g => if g.batchId == b then { g with orders := g.orders ++ [i] } else g)
  else
    let k := searchList groups (fun g => groupPred b g.batchId)
    groups.take k ++ { batchId := b, orders := [i] } :: groups.drop k

/-- `GroupOrdersByBatchId` (x/dex/amm/util.go:76-97). -/
def groupOrdersByBatchId (h : Heap) (ps : List Nat) : List OrderGroup := ps.foldl (addToGroups h) []

/-- Insertion step of the stable sort: `x` goes in front of the first element that has no priority over it. -/
def insertByPriority (h : Heap) (x : Nat) : List Nat → List Nat
  | [] => [x]
  | y :: ys => if (h y).hasPriority (h x) then y :: insertByPriority h x ys else x :: y :: ys

/-- `SortOrders` (x/dex/amm/util.go:100-104): `sort.SliceStable`, modelled by stable insertion sort (a stable sort by
a strict weak order has exactly one result). -/
def sortOrders (h : Heap) (ps : List Nat) : List Nat := ps.foldr (insertByPriority h) []

end Verif.Amm

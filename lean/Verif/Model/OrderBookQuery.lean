import Verif.Model.Batch
import Mathlib.Data.List.Sort
/-! # The order book query: x/dex/types/orderbook.go and `OrderBooks` of x/dex/keeper/grpc_query.go -/
namespace Verif.Amm
open Verif

/-- `FitPriceToTickGap` (x/dex/types/orderbook.go:152-162); a zero gap panics in Go and gives 0 here, and is never passed. -/
def fitPriceToTickGap (price gap : Int) (down : Bool) : Int :=
  let tick := price.tdiv gap * gap
  if !down && tick != price then tick + gap else tick

/-- `OrderBookBasePrice` (x/dex/types/orderbook.go:12-26). -/
def orderBookBasePrice (v : OrderBookView) (prec : Nat) : Option Int :=
  match v.highestBuyPrice, v.lowestSellPrice with
  | some b, some s => some (roundPrice ((b + s).tdiv 2) prec)
  | some b, none => some b
  | none, some s => some s
  | none, none => none

/-- `OrderBookTickResponse` (x/dex/types/query.pb.go, built at x/dex/types/orderbook.go:89-93, :114-118). -/
structure Level where
  price : Int
  userAmt : Int
  poolAmt : Int
  deriving DecidableEq, Repr

/-- The loop that finds the price whose tick gap is the smallest price unit (x/dex/types/orderbook.go:54-70).  `room` is
`lowestPriceUnitMaxNumTicks - i`.  `none` is a panic.  The fuel `(highest - cur + 1)` suffices since `UpTick` moves up. -/
def unitPriceLoop (v : OrderBookView) (highest : Int) (prec : Nat) : Nat → Nat → Int → Option Int
  | 0, _, cur => some cur
  | fuel + 1, room, cur =>
    if room = 0 ∨ ¬ cur ≤ highest then some cur
    else match v.sellAmountOver cur true, v.sellAmountOver cur false with
      | some incl, some excl =>
        let room' := if 0 < incl - excl then room - 1 else room
        if room' = 0 then some cur
        else if ¬ 0 < excl then some cur
        else unitPriceLoop v highest prec fuel room' (upTick cur prec)
      | _, _ => none

/-- The smallest price unit (x/dex/types/orderbook.go:52-74); only called if one of the best prices exists. -/
def smallestPriceUnit (v : OrderBookView) (highest : Int) (prec maxTicks : Nat) : Option Int :=
  match v.lowestSellPrice with
  | some ls => (unitPriceLoop v highest prec (highest - ls + 1).toNat maxTicks ls).map (fun c => tickGap c prec)
  | none => v.highestBuyPrice.map (fun b => tickGap b prec)

/-- The two aggregation loops (sells x/dex/types/orderbook.go:86-101, buys :111-127), which differ in the depth function
`depth`, the remaining depth `rest` beyond the price, the price limit `ok` and the signed step.  `room` is
`config.MaxNumTicks - j`; `none` is a panic.  Both loops make at most `|limit - start| + 1` iterations for a positive unit,
which is the fuel given. -/
def levelLoop (depth : Int → Int) (rest : Int → Option Int) (ok : Int → Bool) (step : Int) :
    Nat → Nat → Int → Int → Option (List Level)
  | 0, _, _, _ => some []
  | fuel + 1, room, cur, acc =>
    if room = 0 ∨ ok cur = false then some []
    else
      let amt := depth cur - acc
      match rest cur with
      | none => none
      | some r =>
        if 0 < amt then
          if ¬ 0 < r then some [⟨cur, amt, 0⟩]
          else (levelLoop depth rest ok step fuel (room - 1) (cur + step) (acc + amt)).map (⟨cur, amt, 0⟩ :: ·)
        else
          if ¬ 0 < r then some []
          else levelLoop depth rest ok step fuel room (cur + step) acc

/-- The sell ticks of one order book (x/dex/types/orderbook.go:85-106), reversed at :103-105. -/
def sellLevels (v : OrderBookView) (highest unit : Int) (maxTicks : Nat) : Option (List Level) :=
  match v.lowestSellPrice with
  | none => some []
  | some ls =>
    let start := fitPriceToTickGap ls unit false
    (levelLoop (fun p => v.sellAmountUnder p true) (fun p => v.sellAmountOver p false) (fun p => p ≤ highest) unit
      (highest - start + 1).toNat maxTicks start 0).map List.reverse

/-- The buy ticks of one order book (x/dex/types/orderbook.go:107-128). -/
def buyLevels (v : OrderBookView) (lowest unit : Int) (maxTicks : Nat) : Option (List Level) :=
  match v.highestBuyPrice with
  | none => some []
  | some hb =>
    let start := fitPriceToTickGap hb unit true
    levelLoop (fun p => v.buyAmountOver p true) (fun p => v.buyAmountUnder p false) (fun p => lowest ≤ p && !(p < 0)) (-unit)
      (start - lowest + 1).toNat maxTicks start 0

/-- `OrderBookResponse` (x/dex/types/orderbook.go:80-84). -/
structure BookResponse where
  unit : Int
  sells : List Level
  buys : List Level
  deriving DecidableEq, Repr

/-- `OrderBookPairResponse` (x/dex/types/orderbook.go:35-37); `basePrice = none` is the response without a base price. -/
structure PairResponse where
  pairId : Nat
  basePrice : Option Int
  books : List BookResponse
  deriving DecidableEq, Repr

/-- One order book for a price unit power (x/dex/types/orderbook.go:76-129). -/
def bookResponse (v : OrderBookView) (lowest highest smallest : Int) (maxTicks power : Nat) : Option BookResponse :=
  let unit := smallest * 10 ^ power
  match sellLevels v highest unit maxTicks, buyLevels v lowest unit maxTicks with
  | some s, some b => some ⟨unit, s, b⟩
  | _, _ => none

/-- `MakeOrderBookPairResponse` (x/dex/types/orderbook.go:34-132) for configs with one maximal number of ticks (as built at
x/dex/keeper/grpc_query.go:565-571), given by their powers.  The powers are distinct, so `sort.Slice` is modelled by a
stable sort; `power` is an `int` small enough for the unit not to overflow. -/
def makeOrderBookPairResponse (pairId : Nat) (v : OrderBookView) (lowest highest : Int) (prec : Nat) (powers : List Nat)
    (maxTicks : Nat) : Option PairResponse :=
  match orderBookBasePrice v prec with
  | none => some ⟨pairId, none, []⟩
  | some base =>
    match powers with
    | [] => none
    | _ :: _ =>
      match smallestPriceUnit v highest prec maxTicks with
      | none => none
      | some u =>
        ((powers.insertionSort (· ≤ ·)).mapM (fun k => bookResponse v lowest highest u maxTicks k)).map
          (fun bs => ⟨pairId, some base, bs⟩)

end Verif.Amm

namespace Verif.Dex
open Verif Verif.Amm

/-- The orders collected by the query for one pair (x/dex/keeper/grpc_query.go:540-560): the live user orders, then the
orders of every pool that is not disabled.  `none` is a panic. -/
def queryBookOrders (env : Env) (s : State) (pair : Pair) (lo hi : Int) : Option (List Order) :=
  let users := ((s.ordersOf pair.id).filter (fun o => o.status.isMatchable)).map newUserOrder
  (((s.poolsOf pair.id).filter (fun p => !p.disabled)).mapM (fun p =>
      (ammPool env p (s.poolRx p pair) (s.poolRy p pair) 0).map
        (fun ap => poolOrders env.sqrt p.id ap lo hi s.params.tickPrec))).map
    (fun ps => users ++ ps.flatten)

/-- The response for one pair (x/dex/keeper/grpc_query.go:530-576). -/
def queryOrderBook (env : Env) (s : State) (powers : List Nat) (numTicks : Nat) (pairId : Nat) : Option PairResponse :=
  match s.getPair pairId with
  | none => none
  | some pair =>
    match pair.lastPrice with
    | none => none
    | some last =>
      match s.params.priceLimits last with
      | none => none
      | some (lo, hi) =>
        match queryBookOrders env s pair lo hi with
        | none => none
        | some os =>
          makeOrderBookPairResponse pair.id (makeView (heapOf os) (bookOf os)).match lo hi s.params.tickPrec powers numTicks

/-- `OrderBooks` (x/dex/keeper/grpc_query.go:492-581).  `none` is an error or a panic; the state is not changed. -/
def queryOrderBooks (env : Env) (s : State) (pairIds powers : List Nat) (numTicks : Nat) : Option (List PairResponse) :=
  if pairIds = [] then none
  else
    let powers := if powers = [] then [0, 1, 2] else powers
    if numTicks = 0 then none
    else if ¬ pairIds.Nodup then none
    else if ¬ powers.Nodup then none
    else pairIds.mapM (queryOrderBook env s powers numTicks)

end Verif.Dex

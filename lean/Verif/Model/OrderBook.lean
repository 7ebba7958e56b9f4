import Verif.Model.Order
/-! # Order book: model of x/dex/amm/orderbook.go -/
namespace Verif.Amm
open Verif

/-- `orderBookTick` (x/dex/amm/orderbook.go:218-221). -/
structure Tick where
  price : Int
  orders : List Nat
  deriving DecidableEq, Repr

/-- `OrderBook` (x/dex/amm/orderbook.go:12-14): buy ticks (`priceIncreasing = false`) and sell ticks
(`priceIncreasing = true`). -/
structure OrderBook where
  buys : List Tick
  sells : List Tick
  deriving DecidableEq, Repr

/-- Search predicate of `findPrice` (x/dex/amm/orderbook.go:159-165). -/
def pricePred (increasing : Bool) (price : Int) (t : Tick) : Bool :=
  if increasing then t.price ≥ price else t.price ≤ price

/-- `findPrice` (x/dex/amm/orderbook.go:158-170). -/
def findPrice (increasing : Bool) (ticks : List Tick) (price : Int) : Nat × Bool :=
  let i := searchList ticks (pricePred increasing price)
  match ticks[i]? with
  | some t => (i, t.price == price)
  | none => (i, false)

/-- `orderBookTicks.addOrder` (x/dex/amm/orderbook.go:172-185, with newOrderBookTick/addOrder :223-232). -/
def addOrderTicks (increasing : Bool) (h : Heap) (ticks : List Tick) (p : Nat) : List Tick :=
  match findPrice increasing ticks (h p).price with
  | (i, true) => ticks.modify i (fun t => { t with orders := t.orders ++ [p] })
  | (i, false) => ticks.take i ++ { price := (h p).price, orders := [p] } :: ticks.drop i

/-- `AddOrder` for one order (x/dex/amm/orderbook.go:27-38). -/
def addOrder (h : Heap) (ob : OrderBook) (p : Nat) : OrderBook :=
  if 0 < matchableAmount (h p) (h p).price then
    match (h p).dir with
    | .buy => { ob with buys := addOrderTicks false h ob.buys p }
    | .sell => { ob with sells := addOrderTicks true h ob.sells p }
  else ob

/-- `NewOrderBook(orders...)` (x/dex/amm/orderbook.go:17-24). -/
def newOrderBook (h : Heap) (ps : List Nat) : OrderBook := ps.foldl (addOrder h) { buys := [], sells := [] }

/-- `Orders` (x/dex/amm/orderbook.go:41-47). -/
def OrderBook.orders (ob : OrderBook) : List Nat := (ob.buys ++ ob.sells).flatMap (·.orders)

/-- `ordersAt` (x/dex/amm/orderbook.go:187-193). -/
def ordersAt (increasing : Bool) (ticks : List Tick) (price : Int) : List Nat :=
  match findPrice increasing ticks price with
  | (i, true) => (ticks[i]?.map (·.orders)).getD []
  | (_, false) => []

/-- `BuyOrdersAt` (x/dex/amm/orderbook.go:51-53). -/
def OrderBook.buyOrdersAt (ob : OrderBook) (price : Int) : List Nat := ordersAt false ob.buys price

/-- `SellOrdersAt` (x/dex/amm/orderbook.go:57-59). -/
def OrderBook.sellOrdersAt (ob : OrderBook) (price : Int) : List Nat := ordersAt true ob.sells price

/-- `orderBookTicks.highestPrice` (x/dex/amm/orderbook.go:195-204). -/
def ticksHighest (increasing : Bool) (ticks : List Tick) : Option Int :=
  if increasing then ticks.getLast?.map (·.price) else ticks.head?.map (·.price)

/-- `orderBookTicks.lowestPrice` (x/dex/amm/orderbook.go:206-215). -/
def ticksLowest (increasing : Bool) (ticks : List Tick) : Option Int :=
  if increasing then ticks.head?.map (·.price) else ticks.getLast?.map (·.price)

/-- `HighestPrice` (x/dex/amm/orderbook.go:61-74). -/
def OrderBook.highestPrice (ob : OrderBook) : Option Int :=
  match ticksHighest false ob.buys, ticksHighest true ob.sells with
  | some a, some b => some (max a b)
  | some a, none => some a
  | none, some b => some b
  | none, none => none

/-- `LowestPrice` (x/dex/amm/orderbook.go:76-89). -/
def OrderBook.lowestPrice (ob : OrderBook) : Option Int :=
  match ticksLowest false ob.buys, ticksLowest true ob.sells with
  | some a, some b => some (min a b)
  | some a, none => some a
  | none, some b => some b
  | none, none => none

end Verif.Amm

import Verif.Model.Match
import Verif.Model.Tick
/-! # Order views: model of x/dex/amm/view.go, findFirstTrueCondition and poolOrderPriceGapRatio of x/dex/amm/util.go,
and FindMatchPrice of x/dex/amm/match.go -/
namespace Verif.Amm
open Verif

/-- `findFirstTrueCondition` (x/dex/amm/util.go:110-127); `none` is `(0, false)`. -/
def findFirstTrueCondition (start stop : Int) (f : Int → Bool) : Option Int :=
  if start < stop then
    let i := start + (sortSearch (stop - start + 1).toNat (fun k => f (start + k)) : Int)
    if i > stop then none else some i
  else
    let i := start - (sortSearch (start - stop + 1).toNat (fun k => f (start - k)) : Int)
    if i < stop then none else some i

/-- `inv` (x/dex/amm/util.go:130-133). -/
def inv (x : Int) : Int := Dec.quo Dec.one x

/-- Threshold `t1 = 0.01` (x/dex/amm/util.go:137). -/
def t1 : Int := 10000000000000000
/-- Threshold `t2 = 0.02` (x/dex/amm/util.go:138). -/
def t2 : Int := 20000000000000000
/-- Threshold `t3 = 0.1` (x/dex/amm/util.go:139). -/
def t3 : Int := 100000000000000000
/-- Coefficient `a1 = 0.007` (x/dex/amm/util.go:142). -/
def a1 : Int := 7000000000000000
/-- Coefficient `b1 = 0.00003` (x/dex/amm/util.go:142). -/
def b1 : Int := 30000000000000
/-- Coefficient `a2 = 0.09` (x/dex/amm/util.go:143). -/
def a2 : Int := 90000000000000000
/-- Coefficient `b2 = -0.0008` (x/dex/amm/util.go:143). -/
def b2 : Int := -800000000000000
/-- Coefficient `a3 = 0.05` (x/dex/amm/util.go:144). -/
def a3 : Int := 50000000000000000
/-- Coefficient `b4 = 0.005` (x/dex/amm/util.go:145). -/
def b4 : Int := 5000000000000000

/-- `poolOrderPriceGapRatio` (x/dex/amm/util.go:148-163). -/
def poolOrderPriceGapRatio (poolPrice currentPrice : Int) : Int :=
  let poolPrice := if poolPrice = 0 then 1 else poolPrice
  let x := Dec.quo ((currentPrice - poolPrice).natAbs : Int) poolPrice
  if x ≤ t1 then Dec.mul a1 x + b1
  else if x ≤ t2 then Dec.mul a2 x + b2
  else if x ≤ t3 then Dec.mul a3 x
  else b4

/-- `amtAccSum` (x/dex/amm/view.go:178-181). -/
structure AccSum where
  price : Int
  sum : Int
  deriving DecidableEq, Repr

/-- `OrderBookView` (x/dex/amm/view.go:22-24). -/
structure OrderBookView where
  buys : List AccSum
  sells : List AccSum
  deriving DecidableEq, Repr

/-- One side of `MakeView` (x/dex/amm/view.go:31-42 and :43-54): running sums of the matchable amounts. -/
def accSums (h : Heap) : List Tick → Int → List AccSum
  | [], _ => []
  | t :: ts, prev =>
    let s := prev + totalMatchable h t.orders t.price
    { price := t.price, sum := s } :: accSums h ts s

/-- `MakeView` (x/dex/amm/view.go:26-56). -/
def makeView (h : Heap) (ob : OrderBook) : OrderBookView :=
  { buys := accSums h ob.buys 0, sells := accSums h ob.sells 0 }

/-- `accSums[i-1].sum`, or zero when `i = 0` (x/dex/amm/view.go:130-133, :158-161). -/
def sumBefore (l : List AccSum) (i : Nat) : Int :=
  if i = 0 then 0 else (l[i - 1]?.map (·.sum)).getD 0

/-- `BuyAmountOver` (x/dex/amm/view.go:122-134). -/
def OrderBookView.buyAmountOver (v : OrderBookView) (price : Int) (inclusive : Bool) : Int :=
  sumBefore v.buys (searchList v.buys (fun a => if inclusive then a.price < price else a.price ≤ price))

/-- `SellAmountUnder` (x/dex/amm/view.go:150-162). -/
def OrderBookView.sellAmountUnder (v : OrderBookView) (price : Int) (inclusive : Bool) : Int :=
  sumBefore v.sells (searchList v.sells (fun a => if inclusive then a.price > price else a.price ≥ price))

/-- `BuyAmountUnder` (x/dex/amm/view.go:136-148); `none` is the index-out-of-range panic on an empty side. -/
def OrderBookView.buyAmountUnder (v : OrderBookView) (price : Int) (inclusive : Bool) : Option Int :=
  let i := searchList v.buys (fun a => if inclusive then a.price ≤ price else a.price < price)
  match v.buys.getLast? with
  | none => none
  | some l => if i = 0 then some l.sum else some (l.sum - sumBefore v.buys i)

/-- `SellAmountOver` (x/dex/amm/view.go:164-176); `none` is the index-out-of-range panic on an empty side. -/
def OrderBookView.sellAmountOver (v : OrderBookView) (price : Int) (inclusive : Bool) : Option Int :=
  let i := searchList v.sells (fun a => if inclusive then a.price ≥ price else a.price > price)
  match v.sells.getLast? with
  | none => none
  | some l => if i = 0 then some l.sum else some (l.sum - sumBefore v.sells i)

/-- `HighestBuyPrice` (x/dex/amm/view.go:96-107). -/
def OrderBookView.highestBuyPrice (v : OrderBookView) : Option Int :=
  v.buys[searchList v.buys (fun a => 0 < a.sum)]?.map (·.price)

/-- `LowestSellPrice` (x/dex/amm/view.go:109-120). -/
def OrderBookView.lowestSellPrice (v : OrderBookView) : Option Int :=
  v.sells[searchList v.sells (fun a => 0 < a.sum)]?.map (·.price)

/-- One of the two update loops of `Match` (x/dex/amm/view.go:80-86, :87-93). -/
def reduceSums (l : List AccSum) (idx : Nat) (matchAmt : Int) : List AccSum :=
  l.mapIdx (fun i a => { a with sum := if i < idx then 0 else a.sum - matchAmt })

/-- `Match` (x/dex/amm/view.go:58-94). -/
def OrderBookView.match (v : OrderBookView) : OrderBookView :=
  if v.buys.length = 0 ∨ v.sells.length = 0 then v
  else
    let buyIdx := searchList v.buys (fun a => v.buyAmountOver a.price true > v.sellAmountUnder a.price true)
    let sellIdx := searchList v.sells (fun a => v.sellAmountUnder a.price true > v.buyAmountOver a.price true)
    if buyIdx = v.buys.length ∧ sellIdx = v.sells.length then v
    else
      let m := if 0 < buyIdx then sumBefore v.buys buyIdx else 0
      let m := if 0 < sellIdx then max m (sumBefore v.sells sellIdx) else m
      { buys := reduceSums v.buys buyIdx m, sells := reduceSums v.sells sellIdx m }

/-- The `OrderView` interface (x/dex/amm/view.go:15-20). -/
structure OrderView where
  highestBuyPrice : Option Int
  lowestSellPrice : Option Int
  buyAmountOver : Int → Bool → Int
  sellAmountUnder : Int → Bool → Int

/-- `OrderBookView` as an `OrderView` (x/dex/amm/view.go:10). -/
def OrderBookView.toView (v : OrderBookView) : OrderView :=
  { highestBuyPrice := v.highestBuyPrice, lowestSellPrice := v.lowestSellPrice,
    buyAmountOver := v.buyAmountOver, sellAmountUnder := v.sellAmountUnder }

/-- Loop of `MultipleOrderViews.HighestBuyPrice` (x/dex/amm/view.go:185-194). -/
def multiHighest : List OrderView → Option Int → Option Int
  | [], acc => acc
  | v :: vs, acc =>
    multiHighest vs (match v.highestBuyPrice, acc with
      | none, a => a
      | some p, none => some p
      | some p, some q => if p > q then some p else some q)

/-- Loop of `MultipleOrderViews.LowestSellPrice` (x/dex/amm/view.go:196-205). -/
def multiLowest : List OrderView → Option Int → Option Int
  | [], acc => acc
  | v :: vs, acc =>
    multiLowest vs (match v.lowestSellPrice, acc with
      | none, a => a
      | some p, none => some p
      | some p, some q => if p < q then some p else some q)

/-- `MultipleOrderViews` (x/dex/amm/view.go:183-221). -/
def multipleOrderViews (vs : List OrderView) : OrderView :=
  { highestBuyPrice := multiHighest vs none
    lowestSellPrice := multiLowest vs none
    buyAmountOver := fun p i => vs.foldl (fun a v => a + v.buyAmountOver p i) 0
    sellAmountUnder := fun p i => vs.foldl (fun a v => a + v.sellAmountUnder p i) 0 }

/-- Condition of the ascending search of `FindMatchPrice` (x/dex/amm/match.go:91-94). -/
def matchPriceUp (ov : OrderView) (prec : Nat) (i : Int) : Bool :=
  let s := ov.sellAmountUnder (tickFromIndex i prec) true
  0 < s && ov.buyAmountOver (tickFromIndex (i + 1) prec) true ≤ s

/-- Condition of the descending search of `FindMatchPrice` (x/dex/amm/match.go:98-101). -/
def matchPriceDown (ov : OrderView) (prec : Nat) (i : Int) : Bool :=
  let b := ov.buyAmountOver (tickFromIndex i prec) true
  0 < b && b ≥ ov.sellAmountUnder (tickFromIndex (i - 1) prec) true

/-- `FindMatchPrice` (x/dex/amm/match.go:74-107). -/
def findMatchPrice (ov : OrderView) (prec : Nat) : Option Int :=
  match ov.highestBuyPrice with
  | none => none
  | some hb =>
    match ov.lowestSellPrice with
    | none => none
    | some ls =>
      if hb < ls then none
      else
        let lo := tickToIndex (lowestTick prec) prec
        let hi := tickToIndex (highestTick prec) prec
        match findFirstTrueCondition lo hi (matchPriceUp ov prec) with
        | none => none
        | some i =>
          match findFirstTrueCondition hi lo (matchPriceDown ov prec) with
          | none => none
          | some j => some (roundPrice ((tickFromIndex i prec + tickFromIndex j prec).tdiv 2) prec)

end Verif.Amm

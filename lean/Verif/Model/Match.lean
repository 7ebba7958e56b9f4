import Verif.Model.OrderBook
/-!
# Matching: model of x/dex/amm/match.go

`none` is a Go panic.  `MState.log` is a ghost record of all `FillOrder` calls (newest last); it does not influence
the computation and makes "which order was filled by how much at which price" observable.
-/
namespace Verif.Amm
open Verif

/-- `PriceDirection` values (x/dex/amm/match.go:10-16). -/
inductive PriceDir where
  | staying
  | increasing
  | decreasing
  deriving DecidableEq, Repr

/-- One call of `FillOrder`. -/
structure Fill where
  ptr : Nat
  amt : Int
  price : Int
  deriving DecidableEq, Repr

/-- State threaded through matching: the heap of orders, the running `quoteCoinDiff`, the ghost log. -/
structure MState where
  heap : Heap
  diff : Int
  log : List Fill

/-- Effect of `FillOrder` on the order (x/dex/amm/match.go:37-51). -/
def filledOrder (o : Order) (amt price : Int) : Order :=
  match o.dir with
  | .buy => { o with paid := o.paid + quoteCeil price amt, received := o.received + amt, openAmt := o.openAmt - amt }
  | .sell => { o with paid := o.paid + amt, received := o.received + quoteFloor price amt, openAmt := o.openAmt - amt }

/-- `quoteCoinDiff` returned by `FillOrder` (x/dex/amm/match.go:42,46). -/
def fillDiff (dir : Dir) (amt price : Int) : Int :=
  match dir with
  | .buy => quoteCeil price amt
  | .sell => - quoteFloor price amt

/-- `FillOrder` (x/dex/amm/match.go:32-52); `none` is the panic at line 35.  The returned difference is added to the
running total, as every caller does. -/
def fillOrder (st : MState) (p : Nat) (amt price : Int) : Option MState :=
  if matchableAmount (st.heap p) price < amt then none
  else some {
    heap := fun q => if q = p then filledOrder (st.heap p) amt price else st.heap q
    diff := st.diff + fillDiff (st.heap p).dir amt price
    log := st.log ++ [⟨p, amt, price⟩] }

/-- `FulfillOrder` (x/dex/amm/match.go:55-62). -/
def fulfillOrder (st : MState) (p : Nat) (price : Int) : Option MState :=
  let m := matchableAmount (st.heap p) price
  if 0 < m then fillOrder st p m price else some st

/-- `FulfillOrders` (x/dex/amm/match.go:66-72). -/
def fulfillOrders (st : MState) : List Nat → Int → Option MState
  | [], _ => some st
  | p :: ps, price =>
    match fulfillOrder st p price with
    | none => none
    | some st' => fulfillOrders st' ps price

/-- First loop of `DistributeOrderAmountToOrders` (x/dex/amm/match.go:342-354): the proportional amount of an order,
0 when nothing is stored in the map. -/
def firstShare (h : Heap) (total amt price : Int) (p : Nat) : Int :=
  let m := matchableAmount (h p) price
  if m = 0 then 0
  else
    let proportion := Dec.quoTruncate (Dec.ofInt (h p).amount) (Dec.ofInt total)
    let matched := min m (Dec.truncateInt (Dec.mulInt proportion amt))
    if 0 < matched then matched else 0

/-- Second loop of `DistributeOrderAmountToOrders` (x/dex/amm/match.go:357-369): the remainder goes to the orders in
sequence.  The Go map is the list of (order, amount) pairs in the order of the slice, with 0 for "not stored". -/
def secondShare (h : Heap) (price : Int) : Int → List (Nat × Int) → List (Nat × Int)
  | _, [] => []
  | rem, (p, prev) :: rest =>
    if rem = 0 then (p, prev) :: rest
    else
      let m := min rem (matchableAmount (h p) price - prev)
      (p, prev + m) :: secondShare h price (rem - m) rest

/-- Classification of x/dex/amm/match.go:377: does the order count as matched? -/
def countsMatched (h : Heap) (price : Int) (e : Nat × Int) : Bool :=
  e.2 ≠ 0 && ((h e.1).dir == .buy || 0 < quoteFloor price e.2)

/-- Sequence of `FillOrder` calls (x/dex/amm/match.go:392-395). -/
def fillAll (st : MState) (price : Int) : List (Nat × Int) → Option MState
  | [] => some st
  | (p, a) :: rest =>
    match fillOrder st p a price with
    | none => none
    | some st' => fillAll st' price rest

/-- Does any order reach the division by `totalAmt` (x/dex/amm/match.go:348) while `totalAmt` is zero?  The library
panics then. -/
def divByZero (h : Heap) (ps : List Nat) (price : Int) : Bool :=
  totalAmount h ps = 0 && ps.any (fun p => matchableAmount (h p) price ≠ 0)

/-- The map after both loops of `DistributeOrderAmountToOrders` (x/dex/amm/match.go:338-369). -/
def shares (h : Heap) (ps : List Nat) (amt price : Int) : List (Nat × Int) :=
  let total := totalAmount h ps
  let first := ps.map (fun p => (p, firstShare h total amt price p))
  let totalMatched := first.foldl (fun a e => a + e.2) 0
  secondShare h price (amt - totalMatched) first

/-- `DistributeOrderAmountToOrders` (x/dex/amm/match.go:337-397).  The recursion always shortens the list; `fuel` is
its length.  The final loop over the Go map is in slice order here (order independence is a theorem). -/
def distributeToOrders : Nat → MState → List Nat → Int → Int → Option MState
  | 0, st, _, _, _ => some st
  | fuel + 1, st, ps, amt, price =>
    if divByZero st.heap ps price then none
    else
      let sh := shares st.heap ps amt price
      let matched := sh.filter (countsMatched st.heap price)
      if matched.length < sh.length then
        if matched.isEmpty then distributeToOrders fuel st ps.dropLast amt price
        else distributeToOrders fuel st (matched.map (·.1)) amt price
      else fillAll st price sh

/-- The same function with the iteration order of the Go map in the final loop (x/dex/amm/match.go:392-395) left to an
arbitrary `ord`. -/
def distributeToOrdersOrd (ord : List (Nat × Int) → List (Nat × Int)) :
    Nat → MState → List Nat → Int → Int → Option MState
  | 0, st, _, _, _ => some st
  | fuel + 1, st, ps, amt, price =>
    if divByZero st.heap ps price then none
    else
      let sh := shares st.heap ps amt price
      let matched := sh.filter (countsMatched st.heap price)
      if matched.length < sh.length then
        if matched.isEmpty then distributeToOrdersOrd ord fuel st ps.dropLast amt price
        else distributeToOrdersOrd ord fuel st (matched.map (·.1)) amt price
      else fillAll st price (ord sh)

/-- Loop over groups of `DistributeOrderAmountToTick` (x/dex/amm/match.go:309-325). -/
def distributeToGroups (st : MState) : List OrderGroup → Int → Int → Option MState
  | [], _, _ => some st
  | g :: gs, rem, price =>
    let openAmt := totalMatchable st.heap g.orders price
    if openAmt = 0 then distributeToGroups st gs rem price
    else if openAmt ≤ rem then
      match fulfillOrders st g.orders price with
      | none => none
      | some st' => if rem - openAmt = 0 then some st' else distributeToGroups st' gs (rem - openAmt) price
    else
      distributeToOrders (g.orders.length + 1) st (sortOrders st.heap g.orders) rem price

/-- `DistributeOrderAmountToTick` (x/dex/amm/match.go:305-327). -/
def distributeToTick (st : MState) (t : Tick) (amt price : Int) : Option MState :=
  distributeToGroups st (groupOrdersByBatchId st.heap t.orders) amt price

/-- `buildSide` (x/dex/amm/match.go:118-130): the leading ticks not beyond the match price. -/
def buildSide (increasing : Bool) (ticks : List Tick) (matchPrice : Int) : List Tick :=
  ticks.takeWhile (fun t => !((increasing && t.price > matchPrice) || (!increasing && t.price < matchPrice)))

/-- Total matchable amount of some ticks at the match price (x/dex/amm/match.go:126). -/
def ticksTotal (h : Heap) (ticks : List Tick) (price : Int) : Int :=
  ticks.foldl (fun a t => a + totalMatchable h t.orders price) 0

/-- One side's step of the loop of `FindMatchableAmountAtSinglePrice` (x/dex/amm/match.go:147-168).  A side is the
list of its ticks up to index `side.i`, with `totalMatchableAmt` their total; the last tick is dropped when the other
ticks suffice (or when the sell remainder is worth nothing).  `otherTotal` is the other side's total.
Result: `none` = return not found; `some (matchableAmt, side', dropped)`. -/
def sideStep (h : Heap) (isSell : Bool) (side : List Tick) (otherTotal : Int) (matchPrice : Int) :
    Option (Int × List Tick × Bool) :=
  match side.getLast? with
  | none => none
  | some tick =>
    let total := ticksTotal h side matchPrice
    let tickAmt := totalMatchable h tick.orders matchPrice
    let matchable := if isSell then min otherTotal total else min total otherTotal
    let others := total - tickAmt
    let partialAmt := matchable - others
    if others ≥ matchable ∨ (isSell ∧ quoteFloor matchPrice partialAmt = 0) then
      if side.length = 1 then none else some (matchable, side.dropLast, true)
    else some (matchable, side, false)

/-- Loop of `FindMatchableAmountAtSinglePrice` (x/dex/amm/match.go:145-172).  Every round but the last drops a tick,
so `fuel` = number of ticks + 1 suffices. -/
def findLoop (h : Heap) (matchPrice : Int) : Nat → List Tick → List Tick → Option Int
  | 0, _, _ => none
  | fuel + 1, bs, ss =>
    match sideStep h false bs (ticksTotal h ss matchPrice) matchPrice with
    | none => none
    | some (_, bs', d1) =>
      match sideStep h true ss (ticksTotal h bs' matchPrice) matchPrice with
      | none => none
      | some (m, ss', d2) => if d1 = false ∧ d2 = false then some m else findLoop h matchPrice fuel bs' ss'

/-- `FindMatchableAmountAtSinglePrice` (x/dex/amm/match.go:111-173). -/
def findMatchableAmountAtSinglePrice (h : Heap) (ob : OrderBook) (matchPrice : Int) : Option Int :=
  let bs := buildSide false ob.buys matchPrice
  let ss := buildSide true ob.sells matchPrice
  if bs = [] then none
  else if ss = [] then none
  else findLoop h matchPrice (bs.length + ss.length + 1) bs ss

/-- `distributeToTicks` (x/dex/amm/match.go:184-199). -/
def distributeToTicks (st : MState) : List Tick → Int → Int → Option MState
  | [], _, _ => some st
  | t :: ts, rem, price =>
    let tickAmt := totalMatchable st.heap t.orders price
    if tickAmt ≤ rem then
      match fulfillOrders st t.orders price with
      | none => none
      | some st' => if rem - tickAmt = 0 then some st' else distributeToTicks st' ts (rem - tickAmt) price
    else distributeToTick st t rem price

/-- `MatchAtSinglePrice` (x/dex/amm/match.go:178-204).  Outer `none` = panic; the `Bool` is `matched`.  The heap
starts as `h`, the difference at zero. -/
def matchAtSinglePrice (h : Heap) (ob : OrderBook) (matchPrice : Int) : Option (MState × Bool) :=
  let st0 : MState := { heap := h, diff := 0, log := [] }
  match findMatchableAmountAtSinglePrice h ob matchPrice with
  | none => some (st0, false)
  | some m =>
    match distributeToTicks st0 ob.buys m matchPrice with
    | none => none
    | some st1 =>
      match distributeToTicks st1 ob.sells m matchPrice with
      | none => none
      | some st2 => some (st2, true)

/-- Buy half of `PriceDirection` (x/dex/amm/match.go:210-222): (amount over, amount at) the last price. -/
def buyOverAt (h : Heap) (lastPrice : Int) : List Tick → Int → Int × Int
  | [], acc => (acc, 0)
  | t :: ts, acc =>
    if t.price < lastPrice then (acc, 0)
    else
      let amt := totalMatchable h t.orders lastPrice
      if t.price = lastPrice then (acc, amt) else buyOverAt h lastPrice ts (acc + amt)

/-- Sell half of `PriceDirection` (x/dex/amm/match.go:223-235): (amount under, amount at) the last price. -/
def sellUnderAt (h : Heap) (lastPrice : Int) : List Tick → Int → Int × Int
  | [], acc => (acc, 0)
  | t :: ts, acc =>
    if t.price > lastPrice then (acc, 0)
    else
      let amt := totalMatchable h t.orders lastPrice
      if t.price = lastPrice then (acc, amt) else sellUnderAt h lastPrice ts (acc + amt)

/-- `PriceDirection` (x/dex/amm/match.go:208-244). -/
def priceDirection (h : Heap) (ob : OrderBook) (lastPrice : Int) : PriceDir :=
  let (buyOver, buyAt) := buyOverAt h lastPrice ob.buys 0
  let (sellUnder, sellAt) := sellUnderAt h lastPrice ob.sells 0
  if buyOver > sellAt + sellUnder then .increasing
  else if sellUnder > buyAt + buyOver then .decreasing
  else .staying

/-- Loop of `Match` (x/dex/amm/match.go:263-297).  The lists are the ticks from `bi` resp. `si` on; every round
advances one of them, so `fuel` = total number of ticks + 1 suffices.  The last component is
(`matchPrice`, `matched`). -/
def matchLoop (dir : PriceDir) : Nat → MState → List Tick → List Tick → Int → Bool → Option (MState × Int × Bool)
  | 0, st, _, _, mp, matched => some (st, mp, matched)
  | _ + 1, st, [], _, mp, matched => some (st, mp, matched)
  | _ + 1, st, _ :: _, [], mp, matched => some (st, mp, matched)
  | fuel + 1, st, bt :: bs, stk :: ss, mp, matched =>
    if bt.price < stk.price then some (st, mp, matched)
    else
      let p := if dir = .increasing then stk.price else bt.price
      let bAmt := totalMatchable st.heap bt.orders p
      let sAmt := totalMatchable st.heap stk.orders p
      if ¬ 0 < bAmt then matchLoop dir fuel st bs (stk :: ss) mp matched
      else if ¬ 0 < sAmt then matchLoop dir fuel st (bt :: bs) ss mp matched
      else
        match distributeToTick st bt (if bAmt ≤ sAmt then bAmt else sAmt) p with
        | none => none
        | some st1 =>
          match distributeToTick st1 stk (if sAmt ≤ bAmt then sAmt else bAmt) p with
          | none => none
          | some st2 =>
            matchLoop dir fuel st2 (if bAmt ≤ sAmt then bs else bt :: bs) (if sAmt ≤ bAmt then ss else stk :: ss) p true

/-- Result of `Match`: the final state (heap, `quoteCoinDiff`), the match price and whether anything matched. -/
structure MatchResult where
  st : MState
  matchPrice : Int
  matched : Bool

/-- `Match` (x/dex/amm/match.go:249-299); `none` is a panic. -/
def obMatch (h : Heap) (ob : OrderBook) (lastPrice : Int) : Option MatchResult :=
  if ob.buys.length = 0 ∨ ob.sells.length = 0 then some { st := { heap := h, diff := 0, log := [] }, matchPrice := 0, matched := false }
  else
    let dir := priceDirection h ob lastPrice
    match matchAtSinglePrice h ob lastPrice with
    | none => none
    | some (st, matched) =>
      if dir = .staying then some { st, matchPrice := lastPrice, matched }
      else
        match matchLoop dir (ob.buys.length + ob.sells.length + 1) st ob.buys ob.sells lastPrice matched with
        | none => none
        | some (st', mp, m) => some { st := st', matchPrice := mp, matched := m }

end Verif.Amm

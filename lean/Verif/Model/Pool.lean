import Verif.Model.View
/-!
# Liquidity pools: model of x/dex/amm/pool.go

* `none` is a Go panic.  The two pool types are one structure: a `BasicPool` has no range.  `xComp`/`yComp` are
  computed instead of stored (in Go they are re-assigned whenever the balances or the translation change,
  pool.go:224-225, :309-310).
* `sqrt` is a parameter: the square-root routine `utils.DecApproxSqrt` (types/utils.go:137-143) of the library.
  `approxSqrt` is a concrete instance, re-stated from the library.
* Overflow: a result above 256/315 bits makes the library panic with a string that `SafeMath` (types/utils.go:223-244)
  recognises.  In the amount functions the overflow branch yields `MaxCoinAmount`, which is also what the cap yields on
  an unbounded integer, so it needs no separate case.  In `Deposit`/`Withdraw` the overflow is an explicit flag.
-/
namespace Verif.Amm
open Verif

/-- `MinCoinAmount` (x/dex/amm/amm.go:7). -/
def minCoinAmount : Int := 100
/-- `MaxCoinAmount = 10^40` (x/dex/amm/amm.go:8). -/
def maxCoinAmount : Int := 10000000000000000000000000000000000000000
/-- `MinPoolPrice = 10^-15` (x/dex/amm/amm.go:12). -/
def minPoolPrice : Int := 1000
/-- `MaxPoolPrice = 10^20` (x/dex/amm/amm.go:13). -/
def maxPoolPrice : Int := 100000000000000000000000000000000000000
/-- `MinRangedPoolPriceGapRatio = 0.001` (x/dex/amm/amm.go:14). -/
def minRangedPoolPriceGapRatio : Int := 1000000000000000

/-- `LegacyDec.Quo` with its division-by-zero panic (used at x/dex/amm/pool.go:59, :335, :534-584). -/
def quo? (a b : Int) : Option Int := if b = 0 then none else some (Dec.quo a b)

/-- Loop of the library's `ApproxRoot(2)` (called through types/utils.go:137-143). -/
def approxSqrtLoop (d : Int) : Nat → Int → Int → Int
  | 0, guess, _ => guess
  | n + 1, guess, delta =>
    if 1 < (delta.natAbs : Int) then
      let prev := if guess = 0 then 1 else guess
      let delta := (Dec.quo d prev - guess).tdiv 2
      approxSqrtLoop d n (guess + delta) delta
    else guess

/-- `DecApproxSqrt` (types/utils.go:137-143) on a non-negative number: the library's Newton iteration, at most 300 steps,
negative numbers are mirrored. -/
def approxSqrt (d : Int) : Int :=
  let go := fun d => if d = 0 ∨ d = Dec.one then d else approxSqrtLoop d 300 Dec.one Dec.one
  if d < 0 then - go (-d) else go d

/-- The extra fields of `RangedPool` (x/dex/amm/pool.go:208-209). -/
structure Range where
  minPrice : Int
  maxPrice : Int
  transX : Int
  transY : Int
  deriving DecidableEq, Repr

/-- `BasicPool` (x/dex/amm/pool.go:36-43, `range = none`) or `RangedPool` (x/dex/amm/pool.go:205-211). -/
structure Pool where
  rx : Int
  ry : Int
  ps : Int
  range : Option Range
  deriving DecidableEq, Repr

/-- `NewBasicPool` (x/dex/amm/pool.go:47-53). -/
def newBasicPool (rx ry ps : Int) : Pool := { rx, ry, ps, range := none }

/-- Translation in x, zero for a basic pool (x/dex/amm/pool.go:209). -/
def Pool.transX (p : Pool) : Int := match p.range with | none => 0 | some r => r.transX
/-- Translation in y, zero for a basic pool (x/dex/amm/pool.go:209). -/
def Pool.transY (p : Pool) : Int := match p.range with | none => 0 | some r => r.transY
/-- `xComp = rx + transX` (x/dex/amm/pool.go:224, :309). -/
def Pool.xComp (p : Pool) : Int := Dec.ofInt p.rx + p.transX
/-- `yComp = ry + transY` (x/dex/amm/pool.go:225, :310). -/
def Pool.yComp (p : Pool) : Int := Dec.ofInt p.ry + p.transY

/-- `InitialPoolCoinSupply` (x/dex/amm/pool.go:675-682) for non-negative amounts. -/
def initialPoolCoinSupply (x y : Int) : Int :=
  let cx := decLen x.natAbs - 1
  let cy := decLen y.natAbs - 1
  10 ^ (((cx + 1) + (cy + 1) + 1) / 2)

/-- `CreateBasicPool` (x/dex/amm/pool.go:55-67); `none` is an error. -/
def createBasicPool (rx ry : Int) : Option Pool :=
  if rx = 0 ∨ ry = 0 then none
  else
    let p := Dec.quo (Dec.ofInt rx) (Dec.ofInt ry)
    if p < minPoolPrice then none
    else if p > maxPoolPrice then none
    else some (newBasicPool rx ry (initialPoolCoinSupply rx ry))

/-- `Price` (x/dex/amm/pool.go:85-90 and :331-336). -/
def Pool.price (p : Pool) : Option Int :=
  match p.range with
  | none => if p.rx = 0 ∨ p.ry = 0 then none else quo? (Dec.ofInt p.rx) (Dec.ofInt p.ry)
  | some _ => if p.rx = 0 ∧ p.ry = 0 then none else quo? p.xComp p.yComp

/-- `IsDepleted` (x/dex/amm/pool.go:93-95 and :339-341). -/
def Pool.isDepleted (p : Pool) : Bool :=
  match p.range with
  | none => p.ps == 0 || p.rx == 0 || p.ry == 0
  | some _ => p.ps == 0 || (p.rx == 0 && p.ry == 0)

/-- `HighestBuyPrice` (x/dex/amm/pool.go:98-102 and :344-348). -/
def Pool.highestBuyPrice (p : Pool) : Option Int := p.price

/-- `LowestSellPrice` (x/dex/amm/pool.go:105-109 and :351-355). -/
def Pool.lowestSellPrice (p : Pool) : Option Int := p.price

/-- The `SafeMath` block `dx.QuoTruncate(origPrice).TruncateInt()` capped at `MaxCoinAmount` (x/dex/amm/pool.go:126-133,
:169-176, :374-381, :426-433); division by zero panics. -/
def cappedQuo (dx origPrice : Int) : Option Int :=
  if origPrice = 0 then none
  else
    let amt := Dec.truncateInt (Dec.quoTruncate dx origPrice)
    some (if amt > maxCoinAmount then maxCoinAmount else amt)

/-- Lowest price at which the pool trades: `MinPoolPrice` (x/dex/amm/pool.go:116, :156) or the range minimum
(x/dex/amm/pool.go:361, :410). -/
def Pool.floorPrice (p : Pool) : Int := match p.range with | none => minPoolPrice | some r => r.minPrice

/-- Highest price at which the pool trades: `MaxPoolPrice` (x/dex/amm/pool.go:138, :184) or the range maximum
(x/dex/amm/pool.go:388, :441). -/
def Pool.ceilPrice (p : Pool) : Int := match p.range with | none => maxPoolPrice | some r => r.maxPrice

/-- `BuyAmountOver` (x/dex/amm/pool.go:114-135 and :359-383). -/
def Pool.buyAmountOver (p : Pool) (origPrice : Int) : Option Int :=
  let price := if origPrice < p.floorPrice then p.floorPrice else origPrice
  match p.price with
  | none => none
  | some pp =>
    if price ≥ pp then some 0
    else match p.range with
      | none =>
        let dx := Dec.ofInt p.rx - Dec.mulInt price p.ry
        if ¬ 0 < dx then some 0 else cappedQuo dx origPrice
      | some _ =>
        let dx := p.xComp - Dec.mul price p.yComp
        if ¬ 0 < dx then some 0
        else cappedQuo (if dx > Dec.ofInt p.rx then Dec.ofInt p.rx else dx) origPrice

/-- `SellAmountUnder` (x/dex/amm/pool.go:137-149 and :387-403). -/
def Pool.sellAmountUnder (p : Pool) (origPrice : Int) : Option Int :=
  let price := if origPrice > p.ceilPrice then p.ceilPrice else origPrice
  match p.price with
  | none => none
  | some pp =>
    if price ≤ pp then some 0
    else if price = 0 then none
    else match p.range with
      | none =>
        let amt := Dec.truncateInt (Dec.ofInt p.ry - Dec.quoRoundUp (Dec.ofInt p.rx) price)
        some (if ¬ 0 < amt then 0 else amt)
      | some _ =>
        let amt := Dec.truncateInt (p.yComp - Dec.quoRoundUp p.xComp price)
        let amt := if amt > p.ry then p.ry else amt
        some (if ¬ 0 < amt then 0 else amt)

/-- `BuyAmountTo` (x/dex/amm/pool.go:154-178 and :408-435). -/
def Pool.buyAmountTo (sqrt : Int → Int) (p : Pool) (origPrice : Int) : Option Int :=
  let price := if origPrice < p.floorPrice then p.floorPrice else origPrice
  match p.price with
  | none => none
  | some pp =>
    if price ≥ pp then some 0
    else match p.range with
      | none =>
        let dx := Dec.ofInt p.rx
          - Dec.mul (sqrt price) (Dec.mul (sqrt (Dec.ofInt p.rx)) (sqrt (Dec.ofInt p.ry)))
        if ¬ 0 < dx then some 0 else cappedQuo dx origPrice
      | some r =>
        let dx := Dec.ofInt p.rx
          - (Dec.mul (sqrt price) (Dec.mul (sqrt p.xComp) (sqrt p.yComp)) - r.transX)
        if ¬ 0 < dx then some 0
        else cappedQuo (if dx > Dec.ofInt p.rx then Dec.ofInt p.rx else dx) origPrice

/-- `SellAmountTo` (x/dex/amm/pool.go:183-199 and :440-459). -/
def Pool.sellAmountTo (sqrt : Int → Int) (p : Pool) (origPrice : Int) : Option Int :=
  let price := if origPrice > p.ceilPrice then p.ceilPrice else origPrice
  match p.price with
  | none => none
  | some pp =>
    if price ≤ pp then some 0
    else if sqrt price = 0 then none
    else match p.range with
      | none =>
        let amt := Dec.truncateInt (Dec.ofInt p.ry
          - Dec.quo (Dec.mul (sqrt (Dec.ofInt p.rx)) (sqrt (Dec.ofInt p.ry))) (sqrt price))
        some (if ¬ 0 < amt then 0 else amt)
      | some r =>
        let amt := Dec.truncateInt (Dec.ofInt p.ry
          - (Dec.quoRoundUp (Dec.mul (sqrt p.xComp) (sqrt p.yComp)) (sqrt price) - r.transY))
        let amt := if amt > p.ry then p.ry else amt
        some (if ¬ 0 < amt then 0 else amt)

/-- The part of `DeriveTranslation` that computes `sqrtP` (x/dex/amm/pool.go:542-559). -/
def deriveSqrtP (sqrt : Int → Int) (rx ry sqrtM sqrtL : Int) : Option Int :=
  let rxDec := Dec.ofInt rx
  let ryDec := Dec.ofInt ry
  if rxDec = 0 then some sqrtM
  else if ryDec = 0 then some sqrtL
  else if Dec.quo rxDec ryDec = 0 then some sqrtM
  else if Dec.quo ryDec rxDec = 0 then some sqrtL
  else do
    let s := sqrt (Dec.quo rxDec ryDec)
    let u ← quo? sqrtM s
    let v ← quo? s sqrtL
    let alpha := u - v
    return Dec.mul ((alpha + sqrt (Dec.mul alpha alpha + 4 * Dec.one)).tdiv 2) s

/-- `DeriveTranslation` (x/dex/amm/pool.go:534-584); a nil `sqrtK` panics. -/
def deriveTranslation (sqrt : Int → Int) (rx ry minPrice maxPrice : Int) : Option (Int × Int) := do
  let rxDec := Dec.ofInt rx
  let ryDec := Dec.ofInt ry
  let sqrtM := sqrt minPrice
  let sqrtL := sqrt maxPrice
  let sqrtP ← deriveSqrtP sqrt rx ry sqrtM sqrtL
  let sqrtK1 ← if sqrtP ≠ sqrtM then (quo? rxDec (sqrtP - sqrtM)).map some else some none
  let sqrtK ← (if sqrtP ≠ sqrtL then do
      let ip ← quo? Dec.one sqrtP
      let il ← quo? Dec.one sqrtL
      let k2 ← quo? ryDec (ip - il)
      match sqrtK1 with
      | none => some k2
      | some k => do
        let p := Dec.mul sqrtP sqrtP
        let p1 ← quo? (rxDec + Dec.mul k sqrtM) (ryDec + Dec.quo k sqrtL)
        let p2 ← quo? (rxDec + Dec.mul k2 sqrtM) (ryDec + Dec.quo k2 sqrtL)
        return if ((p - p1).natAbs : Int) > ((p - p2).natAbs : Int) then k2 else k
    else sqrtK1)
  let tY ← quo? sqrtK sqrtL
  return (Dec.mul sqrtK sqrtM, tY)

/-- `NewRangedPool` (x/dex/amm/pool.go:214-227). -/
def newRangedPool (sqrt : Int → Int) (rx ry ps minPrice maxPrice : Int) : Option Pool := do
  let (tX, tY) ← deriveTranslation sqrt rx ry minPrice maxPrice
  return { rx, ry, ps, range := some { minPrice, maxPrice, transX := tX, transY := tY } }

/-- `ValidateRangedPoolParams` (x/dex/amm/pool.go:268-294): `true` means no error. -/
def validateRangedPoolParams (minPrice maxPrice initialPrice : Int) : Bool :=
  if ¬ 0 < initialPrice then false
  else if minPrice < minPoolPrice then false
  else if ¬ 0 < maxPrice then false
  else if maxPrice > maxPoolPrice then false
  else if ¬ maxPrice > minPrice then false
  else if Dec.quo (maxPrice - minPrice) minPrice < minRangedPoolPriceGapRatio then false
  else if initialPrice < minPrice then false
  else if initialPrice > maxPrice then false
  else true

/-- The accepted amounts of `CreateRangedPool` (x/dex/amm/pool.go:240-264). -/
def rangedAccept (sqrt : Int → Int) (x y minPrice maxPrice initialPrice : Int) : Option (Int × Int) :=
  if initialPrice = minPrice then some (0, y)
  else if initialPrice = maxPrice then some (x, 0)
  else do
    let sqrtP := sqrt initialPrice
    let sqrtM := sqrt minPrice
    let sqrtL := sqrt maxPrice
    let q ← quo? (Dec.ofInt x) (sqrtP - sqrtM)
    let ip ← quo? Dec.one sqrtP
    let il ← quo? Dec.one sqrtL
    let ay := Dec.truncateInt (Dec.ceil (Dec.mul q (ip - il)))
    if ay > y then do
      let q2 ← quo? (Dec.ofInt y) (ip - il)
      return (Dec.truncateInt (Dec.ceil (Dec.mul q2 (sqrtP - sqrtM))), y)
    else return (x, ay)

/-- Result of a Go call returning `(value, error)`. -/
inductive Res (α : Type) where
  | ok (a : α)
  | err
  | panic
  deriving DecidableEq, Repr

/-- An `Option` (panic = `none`) as a result. -/
def Res.ofOption {α : Type} : Option α → Res α
  | some a => .ok a
  | none => .panic

/-- `CreateRangedPool` (x/dex/amm/pool.go:231-266). -/
def createRangedPool (sqrt : Int → Int) (x y minPrice maxPrice initialPrice : Int) : Res Pool :=
  if ¬ 0 < x ∧ ¬ 0 < y then .err
  else if validateRangedPoolParams minPrice maxPrice initialPrice = false then .err
  else Res.ofOption (do
    let (ax, ay) ← rangedAccept sqrt x y minPrice maxPrice initialPrice
    newRangedPool sqrt ax ay (initialPoolCoinSupply ax ay) minPrice maxPrice)

/-- `SetBalances` (x/dex/amm/pool.go:74-77 and :303-311). -/
def Pool.setBalances (sqrt : Int → Int) (p : Pool) (rx ry : Int) (derive : Bool) : Option Pool :=
  match p.range with
  | none => some { p with rx, ry }
  | some r =>
    if derive then do
      let (tX, tY) ← deriveTranslation sqrt rx ry r.minPrice r.maxPrice
      return { p with rx, ry, range := some { r with transX := tX, transY := tY } }
    else some { p with rx, ry }

/-- The minting ratio of `Deposit` (x/dex/amm/pool.go:487-498). -/
def depositRatio (rx ry x y : Int) : Option Int :=
  if rx = 0 then (if ry = 0 then none else some (Dec.quoTruncate (Dec.ofInt y) (Dec.ofInt ry)))
  else if ry = 0 then some (Dec.quoTruncate (Dec.ofInt x) (Dec.ofInt rx))
  else some (min (Dec.quoTruncate (Dec.ofInt x) (Dec.ofInt rx)) (Dec.quoTruncate (Dec.ofInt y) (Dec.ofInt ry)))

/-- `Deposit` (x/dex/amm/pool.go:477-509).  `overflow` says whether an overflow panic occurred inside the `SafeMath`
block; then everything is zero.  `none` is the division-by-zero panic (both reserves zero, or zero supply). -/
def deposit (overflow : Bool) (rx ry ps x y : Int) : Option (Int × Int × Int) :=
  if overflow then some (0, 0, 0)
  else do
    let ratio ← depositRatio rx ry x y
    let pc := Dec.truncateInt (Dec.mulTruncate (Dec.ofInt ps) ratio)
    let mp ← quo? (Dec.ofInt pc) (Dec.ofInt ps)
    let ax := Dec.truncateInt (Dec.ceil (Dec.mul (Dec.ofInt rx) mp))
    let ay := Dec.truncateInt (Dec.ceil (Dec.mul (Dec.ofInt ry) mp))
    return (ax, ay, pc)

/-- `Withdraw` (x/dex/amm/pool.go:514-532); `overflow` as in `deposit`. -/
def withdraw (overflow : Bool) (rx ry ps pc feeRate : Int) : Option (Int × Int) :=
  if pc = ps then some (rx, ry)
  else if overflow then some (0, 0)
  else if ps = 0 then none
  else
    let proportion := Dec.quoTruncate (Dec.ofInt pc) (Dec.ofInt ps)
    let multiplier := Dec.one - feeRate
    some (Dec.truncateInt (Dec.mulTruncate (Dec.mulTruncate (Dec.ofInt rx) proportion) multiplier),
      Dec.truncateInt (Dec.mulTruncate (Dec.mulTruncate (Dec.ofInt ry) proportion) multiplier))

/-- Outcome of a generation loop run with bounded fuel. -/
inductive LoopRes where
  | done (orders : List (Int × Int))
  | panic
  | outOfFuel
  deriving DecidableEq, Repr

/-- Balances after `placeOrder` in `PoolBuyOrders` (x/dex/amm/pool.go:605-607): the quote payment is rounded up. -/
def afterBuy (p : Pool) (price amt : Int) : Int × Int := (p.rx - quoteCeil price amt, p.ry + amt)

/-- Balances after `placeOrder` in `PoolSellOrders` (x/dex/amm/pool.go:646-648): the quote receipt is truncated. -/
def afterSell (p : Pool) (price amt : Int) : Int × Int := (p.rx + quoteFloor price amt, p.ry - amt)

/-- The `for` loop of `PoolBuyOrders` (x/dex/amm/pool.go:617-629); orders are (price, amount) pairs, newest last. -/
def buyLoop (prec : Nat) (poolPrice lowest : Int) : Nat → Pool → Int → List (Int × Int) → LoopRes
  | 0, _, _, _ => .outOfFuel
  | fuel + 1, p, tick, acc =>
    if ¬ tick ≥ lowest then .done acc
    else match p.buyAmountOver tick with
      | none => .panic
      | some amt =>
        if amt < minCoinAmount then buyLoop prec poolPrice lowest fuel p (downTick tick prec) acc
        else
          let b := afterBuy p tick amt
          let p' : Pool := { p with rx := b.1, ry := b.2 }
          let acc' := acc ++ [(tick, amt)]
          if ¬ 0 < p'.rx then .done acc'
          else match priceToDownTick? (Dec.mul tick (Dec.one - poolOrderPriceGapRatio poolPrice tick)) prec with
            | none => .panic
            | some t => buyLoop prec poolPrice lowest fuel p' t acc'

/-- Number of iterations given to `buyLoop`; `C12` shows that it is never exhausted. -/
def buyFuel (p : Pool) (tick : Int) : Nat := tick.toNat + p.rx.toNat + 1

/-- The price-capped first order of `PoolBuyOrders` (x/dex/amm/pool.go:602-615): pool and orders afterwards. -/
def buyFirst (sqrt : Int → Int) (p : Pool) (poolPrice highest : Int) : Option (Pool × List (Int × Int)) :=
  if poolPrice > highest then do
    let amt ← p.buyAmountTo sqrt highest
    if amt ≥ minCoinAmount then do
      let b := afterBuy p highest amt
      let p' ← p.setBalances sqrt b.1 b.2 true
      return (p', [(highest, amt)])
    else return (p, [])
  else some (p, [])

/-- `PoolBuyOrders` before its `recover` (x/dex/amm/pool.go:598-630). -/
def poolBuyOrdersRaw (sqrt : Int → Int) (p : Pool) (lowest highest : Int) (prec : Nat) : LoopRes :=
  match p.price with
  | none => .panic
  | some poolPrice =>
    if poolPrice ≤ lowest then .done []
    else match buyFirst sqrt p poolPrice highest with
      | none => .panic
      | some (p', acc) =>
        match p'.price with
        | none => .panic
        | some pp' =>
          match priceToDownTick? (min highest pp') prec with
          | none => .panic
          | some tick => buyLoop prec poolPrice lowest (buyFuel p' tick) p' tick acc

/-- The deferred `recover` (x/dex/amm/pool.go:593-597, :634-638): a panic yields no orders. -/
def LoopRes.orders : LoopRes → List (Int × Int)
  | .done l => l
  | .panic => []
  | .outOfFuel => []

/-- `PoolBuyOrders` (x/dex/amm/pool.go:592-631). -/
def poolBuyOrders (sqrt : Int → Int) (poolId : Nat) (p : Pool) (lowest highest : Int) (prec : Nat) : List Order :=
  (poolBuyOrdersRaw sqrt p lowest highest prec).orders.map (fun o => newPoolOrder poolId .buy o.1 o.2)

/-- The `for` loop of `PoolSellOrders` (x/dex/amm/pool.go:658-670). -/
def sellLoop (prec : Nat) (poolPrice highest : Int) : Nat → Pool → Int → List (Int × Int) → LoopRes
  | 0, _, _, _ => .outOfFuel
  | fuel + 1, p, tick, acc =>
    if ¬ tick ≤ highest then .done acc
    else match p.sellAmountUnder tick with
      | none => .panic
      | some amt =>
        if amt < minCoinAmount ∨ quoteFloor tick amt = 0 then
          sellLoop prec poolPrice highest fuel p (upTick tick prec) acc
        else
          let b := afterSell p tick amt
          let p' : Pool := { p with rx := b.1, ry := b.2 }
          let acc' := acc ++ [(tick, amt)]
          if ¬ p'.ry > minCoinAmount then .done acc'
          else match priceToUpTick? (Dec.mul tick (Dec.one + poolOrderPriceGapRatio poolPrice tick)) prec with
            | none => .panic
            | some t => sellLoop prec poolPrice highest fuel p' t acc'

/-- Number of iterations given to `sellLoop`; `C12` shows that it is never exhausted. -/
def sellFuel (p : Pool) (tick highest : Int) : Nat := (highest - tick).toNat + p.ry.toNat + 2

/-- The price-capped first order of `PoolSellOrders` (x/dex/amm/pool.go:643-656). -/
def sellFirst (sqrt : Int → Int) (p : Pool) (poolPrice lowest : Int) : Option (Pool × List (Int × Int)) :=
  if poolPrice < lowest then do
    let amt ← p.sellAmountTo sqrt lowest
    if amt ≥ minCoinAmount ∧ 0 < quoteFloor lowest amt then do
      let b := afterSell p lowest amt
      let p' ← p.setBalances sqrt b.1 b.2 true
      return (p', [(lowest, amt)])
    else return (p, [])
  else some (p, [])

/-- `PoolSellOrders` before its `recover` (x/dex/amm/pool.go:639-671). -/
def poolSellOrdersRaw (sqrt : Int → Int) (p : Pool) (lowest highest : Int) (prec : Nat) : LoopRes :=
  match p.price with
  | none => .panic
  | some poolPrice =>
    if poolPrice ≥ highest then .done []
    else match sellFirst sqrt p poolPrice lowest with
      | none => .panic
      | some (p', acc) =>
        match p'.price with
        | none => .panic
        | some pp' =>
          match priceToUpTick? (max lowest pp') prec with
          | none => .panic
          | some tick => sellLoop prec poolPrice highest (sellFuel p' tick highest) p' tick acc

/-- `PoolSellOrders` (x/dex/amm/pool.go:633-672). -/
def poolSellOrders (sqrt : Int → Int) (poolId : Nat) (p : Pool) (lowest highest : Int) (prec : Nat) : List Order :=
  (poolSellOrdersRaw sqrt p lowest highest prec).orders.map (fun o => newPoolOrder poolId .sell o.1 o.2)

/-- `PoolOrders` (x/dex/amm/pool.go:586-590). -/
def poolOrders (sqrt : Int → Int) (poolId : Nat) (p : Pool) (lowest highest : Int) (prec : Nat) : List Order :=
  poolBuyOrders sqrt poolId p lowest highest prec ++ poolSellOrders sqrt poolId p lowest highest prec

/-- A pool as an `OrderView` (x/dex/amm/pool.go:18-33 satisfies the interface of x/dex/amm/view.go:15-20).  A panic of a
depth function is given the value 0 here; theorems about the view assume a priced pool. -/
def Pool.toView (p : Pool) : OrderView :=
  { highestBuyPrice := p.highestBuyPrice, lowestSellPrice := p.lowestSellPrice
    buyAmountOver := fun price _ => (p.buyAmountOver price).getD 0
    sellAmountUnder := fun price _ => (p.sellAmountUnder price).getD 0 }

end Verif.Amm

import Verif.Model.Match
import Verif.Model.Pool
import Verif.Model.Keeper
/-!
# Arithmetic with the size limits of the library

`Verif/Model/Dec.lean` computes with unbounded integers.  The library (`cosmossdk.io/math` v1.3.0) panics when the result of an
operation on decimals has more than 315 bits, or an integer more than 256 bits.  This file models the amount functions of the
module once more with these checks after every operation; `none` is any panic.  `C74` says where both agree.

As in the library, `Int.ToLegacyDec`, `Ceil`, `Abs`, `QuoInt64` and comparisons have no check; `x.Power(2)` is `x.Mul(x)` and
`x.Power(1)` is `x` (their further multiplications are by one).  Simplified: additions of `sdk.Int` have the 256-bit check only
where it can matter, in sums over orders.
-/
namespace Verif.Checked
open Verif Verif.Amm

/-- A decimal of at most 315 bits (library `maxDecBitLen`). -/
def fits (a : Int) : Bool := decide (a.natAbs < 2 ^ 315)
/-- An `sdk.Int` of at most 256 bits (library `MaxBitLen`). -/
def fitsInt (a : Int) : Bool := decide (a.natAbs < 2 ^ 256)
/-- The check after an operation on decimals. -/
def ck (a : Int) : Option Int := if fits a then some a else none
/-- `NewIntFromBigInt`, the check after an operation with an integer result. -/
def ckInt (a : Int) : Option Int := if fitsInt a then some a else none

/-- `LegacyDec.Add` (e.g. x/dex/amm/pool.go:559). -/
def add (a b : Int) : Option Int := ck (a + b)
/-- `LegacyDec.Sub` (e.g. x/dex/amm/pool.go:557). -/
def sub (a b : Int) : Option Int := ck (a - b)
/-- `LegacyDec.Mul` (e.g. x/dex/amm/pool.go:165). -/
def mul (a b : Int) : Option Int := ck (Dec.mul a b)
/-- `LegacyDec.MulTruncate` (e.g. x/dex/amm/pool.go:499). -/
def mulTruncate (a b : Int) : Option Int := ck (Dec.mulTruncate a b)
/-- `LegacyDec.MulInt` (e.g. x/dex/amm/util.go:23). -/
def mulInt (a i : Int) : Option Int := ck (Dec.mulInt a i)
/-- `LegacyDec.Quo` (e.g. x/dex/amm/pool.go:89). -/
def quo (a b : Int) : Option Int := if b = 0 then none else ck (Dec.quo a b)
/-- `LegacyDec.QuoTruncate` (e.g. x/dex/amm/util.go:39). -/
def quoTruncate (a b : Int) : Option Int := if b = 0 then none else ck (Dec.quoTruncate a b)
/-- `LegacyDec.QuoRoundUp` (e.g. x/dex/amm/pool.go:144). -/
def quoRoundUp (a b : Int) : Option Int := if b = 0 then none else ck (Dec.quoRoundUp a b)
/-- `LegacyDec.TruncateInt` (e.g. x/dex/amm/util.go:23). -/
def truncateInt (a : Int) : Option Int := ckInt (Dec.truncateInt a)

/-- Loop of the library's `ApproxRoot(2)` (called through types/utils.go:137-143); cf. `approxSqrtLoop`. -/
def sqrtLoop (d : Int) : Nat → Int → Int → Option Int
  | 0, guess, _ => some guess
  | n + 1, guess, delta =>
    if 1 < (delta.natAbs : Int) then do
      let q ← quo d (if guess = 0 then 1 else guess)
      let e ← sub q guess
      let guess' ← add guess (e.tdiv 2)
      sqrtLoop d n guess' (e.tdiv 2)
    else some guess

/-- `DecApproxSqrt` (types/utils.go:137-143). -/
def sqrt (d : Int) : Option Int :=
  let go := fun d => if d = 0 ∨ d = Dec.one then some d else sqrtLoop d 300 Dec.one Dec.one
  if d < 0 then (go (-d)).map (- ·) else go d

/-- The `SafeMath` block `dx.QuoTruncate(origPrice).TruncateInt()` capped at `MaxCoinAmount` (x/dex/amm/pool.go:126-133,
:169-176, :374-381, :426-433): an overflow gives `MaxCoinAmount`, a division by zero panics. -/
def cappedQuo (dx origPrice : Int) : Option Int :=
  if origPrice = 0 then none
  else
    match (quoTruncate dx origPrice).bind truncateInt with
    | none => some maxCoinAmount
    | some amt => some (if amt > maxCoinAmount then maxCoinAmount else amt)

/-- `Price` (x/dex/amm/pool.go:85-90 and :331-336). -/
def price (p : Pool) : Option Int :=
  match p.range with
  | none => if p.rx = 0 ∨ p.ry = 0 then none else quo (Dec.ofInt p.rx) (Dec.ofInt p.ry)
  | some _ => if p.rx = 0 ∧ p.ry = 0 then none else quo p.xComp p.yComp

/-- `BuyAmountOver` (x/dex/amm/pool.go:114-135 and :359-383). -/
def buyAmountOver (p : Pool) (origPrice : Int) : Option Int :=
  let pr := if origPrice < p.floorPrice then p.floorPrice else origPrice
  match price p with
  | none => none
  | some pp =>
    if pr ≥ pp then some 0
    else match p.range with
      | none => do
        let m ← mulInt pr p.ry
        let dx ← sub (Dec.ofInt p.rx) m
        if ¬ 0 < dx then some 0 else cappedQuo dx origPrice
      | some _ => do
        let m ← mul pr p.yComp
        let dx ← sub p.xComp m
        if ¬ 0 < dx then some 0
        else cappedQuo (if dx > Dec.ofInt p.rx then Dec.ofInt p.rx else dx) origPrice

/-- `SellAmountUnder` (x/dex/amm/pool.go:137-149 and :387-403). -/
def sellAmountUnder (p : Pool) (origPrice : Int) : Option Int :=
  let pr := if origPrice > p.ceilPrice then p.ceilPrice else origPrice
  match price p with
  | none => none
  | some pp =>
    if pr ≤ pp then some 0
    else match p.range with
      | none => do
        let q ← quoRoundUp (Dec.ofInt p.rx) pr
        let dy ← sub (Dec.ofInt p.ry) q
        let amt ← truncateInt dy
        some (if ¬ 0 < amt then 0 else amt)
      | some _ => do
        let q ← quoRoundUp p.xComp pr
        let dy ← sub p.yComp q
        let amt ← truncateInt dy
        let amt := if amt > p.ry then p.ry else amt
        some (if ¬ 0 < amt then 0 else amt)

/-- `BuyAmountTo` (x/dex/amm/pool.go:154-178 and :408-435). -/
def buyAmountTo (p : Pool) (origPrice : Int) : Option Int :=
  let pr := if origPrice < p.floorPrice then p.floorPrice else origPrice
  match price p with
  | none => none
  | some pp =>
    if pr ≥ pp then some 0
    else match p.range with
      | none => do
        let sx ← sqrt (Dec.ofInt p.rx)
        let sy ← sqrt (Dec.ofInt p.ry)
        let sp ← sqrt pr
        let k ← mul sx sy
        let m ← mul sp k
        let dx ← sub (Dec.ofInt p.rx) m
        if ¬ 0 < dx then some 0 else cappedQuo dx origPrice
      | some r => do
        let sx ← sqrt p.xComp
        let sy ← sqrt p.yComp
        let sp ← sqrt pr
        let k ← mul sx sy
        let m ← mul sp k
        let m' ← sub m r.transX
        let dx ← sub (Dec.ofInt p.rx) m'
        if ¬ 0 < dx then some 0
        else cappedQuo (if dx > Dec.ofInt p.rx then Dec.ofInt p.rx else dx) origPrice

/-- `SellAmountTo` (x/dex/amm/pool.go:183-199 and :440-459). -/
def sellAmountTo (p : Pool) (origPrice : Int) : Option Int :=
  let pr := if origPrice > p.ceilPrice then p.ceilPrice else origPrice
  match price p with
  | none => none
  | some pp =>
    if pr ≤ pp then some 0
    else match p.range with
      | none => do
        let sx ← sqrt (Dec.ofInt p.rx)
        let sy ← sqrt (Dec.ofInt p.ry)
        let sp ← sqrt pr
        let k ← mul sx sy
        let q ← quo k sp
        let dy ← sub (Dec.ofInt p.ry) q
        let amt ← truncateInt dy
        some (if ¬ 0 < amt then 0 else amt)
      | some r => do
        let sx ← sqrt p.xComp
        let sy ← sqrt p.yComp
        let sp ← sqrt pr
        let k ← mul sx sy
        let q ← quoRoundUp k sp
        let q' ← sub q r.transY
        let dy ← sub (Dec.ofInt p.ry) q'
        let amt ← truncateInt dy
        let amt := if amt > p.ry then p.ry else amt
        some (if ¬ 0 < amt then 0 else amt)

/-- The part of `DeriveTranslation` that computes `sqrtP` (x/dex/amm/pool.go:542-559). -/
def deriveSqrtP (rx ry sqrtM sqrtL : Int) : Option Int :=
  if Dec.ofInt rx = 0 then some sqrtM
  else if Dec.ofInt ry = 0 then some sqrtL
  else do
    let z ← quo (Dec.ofInt rx) (Dec.ofInt ry)
    if z = 0 then some sqrtM
    else do
      let z' ← quo (Dec.ofInt ry) (Dec.ofInt rx)
      if z' = 0 then some sqrtL
      else do
        let s ← sqrt z
        let u ← quo sqrtM s
        let v ← quo s sqrtL
        let alpha ← sub u v
        let a2 ← mul alpha alpha
        let a4 ← add a2 (4 * Dec.one)
        let r ← sqrt a4
        let t ← add alpha r
        mul (t.tdiv 2) s

/-- The price that the factor `k` gives (x/dex/amm/pool.go:573-574). -/
def priceFor (x y k sqrtM sqrtL : Int) : Option Int := do
  let a ← mul k sqrtM
  let n ← add x a
  let b ← quo k sqrtL
  let d ← add y b
  quo n d

/-- The choice of `sqrtK` (x/dex/amm/pool.go:561-580); a nil `sqrtK` panics when it is used. -/
def deriveSqrtK (x y sqrtP sqrtM sqrtL : Int) : Option Int :=
  if sqrtP = sqrtL then
    if sqrtP = sqrtM then none else (sub sqrtP sqrtM).bind (quo x)
  else if sqrtP = sqrtM then do
    let ip ← quo Dec.one sqrtP
    let il ← quo Dec.one sqrtL
    let i ← sub ip il
    quo y i
  else do
    let dp ← sub sqrtP sqrtM
    let k ← quo x dp
    let ip ← quo Dec.one sqrtP
    let il ← quo Dec.one sqrtL
    let i ← sub ip il
    let k2 ← quo y i
    let p ← mul sqrtP sqrtP
    let p1 ← priceFor x y k sqrtM sqrtL
    let p2 ← priceFor x y k2 sqrtM sqrtL
    let e1 ← sub p p1
    let e2 ← sub p p2
    some (if (e1.natAbs : Int) > (e2.natAbs : Int) then k2 else k)

/-- `DeriveTranslation` (x/dex/amm/pool.go:534-584). -/
def deriveTranslation (rx ry minPrice maxPrice : Int) : Option (Int × Int) := do
  let sqrtM ← sqrt minPrice
  let sqrtL ← sqrt maxPrice
  let sqrtP ← deriveSqrtP rx ry sqrtM sqrtL
  let k ← deriveSqrtK (Dec.ofInt rx) (Dec.ofInt ry) sqrtP sqrtM sqrtL
  let tX ← mul k sqrtM
  let tY ← quo k sqrtL
  some (tX, tY)

/-- `NewRangedPool` (x/dex/amm/pool.go:214-227); the sums `xComp` and `yComp` are computed here. -/
def newRangedPool (rx ry ps minPrice maxPrice : Int) : Option Pool := do
  let t ← deriveTranslation rx ry minPrice maxPrice
  let _ ← add (Dec.ofInt rx) t.1
  let _ ← add (Dec.ofInt ry) t.2
  some { rx, ry, ps, range := some { minPrice, maxPrice, transX := t.1, transY := t.2 } }

/-- The minting ratio of `Deposit` (x/dex/amm/pool.go:487-498). -/
def depositRatio (rx ry x y : Int) : Option Int :=
  if Dec.ofInt rx = 0 then quoTruncate (Dec.ofInt y) (Dec.ofInt ry)
  else if Dec.ofInt ry = 0 then quoTruncate (Dec.ofInt x) (Dec.ofInt rx)
  else (quoTruncate (Dec.ofInt x) (Dec.ofInt rx)).bind fun a => (quoTruncate (Dec.ofInt y) (Dec.ofInt ry)).map fun b => min a b

/-- `Deposit` (x/dex/amm/pool.go:477-509), the computation inside `SafeMath`; `none` is a panic of either kind. -/
def depositInner (rx ry ps x y : Int) : Option (Int × Int × Int) := do
  let ratio ← depositRatio rx ry x y
  let m ← mulTruncate (Dec.ofInt ps) ratio
  let pc ← truncateInt m
  let mp ← quo (Dec.ofInt pc) (Dec.ofInt ps)
  let mx ← mul (Dec.ofInt rx) mp
  let ax ← truncateInt (Dec.ceil mx)
  let my ← mul (Dec.ofInt ry) mp
  let ay ← truncateInt (Dec.ceil my)
  some (ax, ay, pc)

/-- `Withdraw` (x/dex/amm/pool.go:514-532), the computation inside `SafeMath`; `none` is a panic of either kind. -/
def withdrawInner (rx ry ps pc feeRate : Int) : Option (Int × Int) := do
  let proportion ← quoTruncate (Dec.ofInt pc) (Dec.ofInt ps)
  let multiplier ← sub Dec.one feeRate
  let x1 ← mulTruncate (Dec.ofInt rx) proportion
  let x2 ← mulTruncate x1 multiplier
  let x ← truncateInt x2
  let y1 ← mulTruncate (Dec.ofInt ry) proportion
  let y2 ← mulTruncate y1 multiplier
  let y ← truncateInt y2
  some (x, y)

/-- `OfferCoinAmount` (x/dex/amm/util.go:20-29). -/
def offerCoinAmount (dir : Dir) (price amt : Int) : Option Int :=
  match dir with
  | .buy => (mulInt price amt).bind fun v => truncateInt (Dec.ceil v)
  | .sell => some amt

/-- `IsTooSmallOrderAmount` (x/dex/types/util.go:94-96). -/
def isTooSmallOrderAmount (amt price : Int) : Option Bool :=
  if amt < minCoinAmount then some true
  else (mulInt price amt).map fun v => decide (v < Dec.ofInt minCoinAmount)

/-- `MatchableAmount` (x/dex/amm/util.go:33-48). -/
def matchableAmount (o : Order) (price : Int) : Option Int := do
  let m ← match o.dir with
    | .buy => (quoTruncate (Dec.ofInt (o.offer - o.paid)) price).bind fun q => (truncateInt q).map fun t => min o.openAmt t
    | .sell => some o.openAmt
  let v ← mulInt price m
  let w ← truncateInt v
  some (if w = 0 then 0 else m)

/-- `TotalMatchableAmount` (x/dex/amm/util.go:60-66). -/
def totalMatchable (h : Heap) : List Nat → Int → Int → Option Int
  | [], _, acc => some acc
  | i :: is, price, acc => do
    let m ← matchableAmount (h i) price
    let acc' ← ckInt (acc + m)
    totalMatchable h is price acc'

/-- `FillOrder` (x/dex/amm/match.go:33-52): the amounts paid and received. -/
def fillAmounts (dir : Dir) (amt price : Int) : Option (Int × Int) :=
  match dir with
  | .buy => (mulInt price amt).bind fun v => (truncateInt (Dec.ceil v)).map fun paid => (paid, amt)
  | .sell => (mulInt price amt).bind fun v => (truncateInt v).map fun received => (amt, received)

/-- The buy side of `PriceDirection` (x/dex/amm/match.go:210-222): amounts over and at the last price. -/
def buyOverAt (h : Heap) (lastPrice : Int) : List Tick → Int → Option (Int × Int)
  | [], acc => some (acc, 0)
  | t :: ts, acc =>
    if t.price < lastPrice then some (acc, 0)
    else do
      let amt ← totalMatchable h t.orders lastPrice 0
      if t.price = lastPrice then some (acc, amt)
      else do
        let acc' ← ckInt (acc + amt)
        buyOverAt h lastPrice ts acc'

/-- The sell side of `PriceDirection` (x/dex/amm/match.go:223-235): amounts under and at the last price. -/
def sellUnderAt (h : Heap) (lastPrice : Int) : List Tick → Int → Option (Int × Int)
  | [], acc => some (acc, 0)
  | t :: ts, acc =>
    if t.price > lastPrice then some (acc, 0)
    else do
      let amt ← totalMatchable h t.orders lastPrice 0
      if t.price = lastPrice then some (acc, amt)
      else do
        let acc' ← ckInt (acc + amt)
        sellUnderAt h lastPrice ts acc'

/-- `PriceDirection` (x/dex/amm/match.go:208-244). -/
def priceDirection (h : Heap) (ob : OrderBook) (lastPrice : Int) : Option PriceDir := do
  let b ← buyOverAt h lastPrice ob.buys 0
  let s ← sellUnderAt h lastPrice ob.sells 0
  let supply ← ckInt (s.2 + s.1)
  if b.1 > supply then some .increasing
  else do
    let demand ← ckInt (b.2 + b.1)
    some (if s.1 > demand then .decreasing else .staying)

end Verif.Checked

import Verif.Model.Dec
/-!
# Price ticks: model of x/dex/amm/tick.go

`prec` is the tick precision (`uint32` parameter converted to `int`, so a natural number here).  Go `int` and `int64`
values (tick indices) are unbounded integers here; in the code they are 64-bit.
-/
namespace Verif.Amm
open Verif

/-- Number of decimal digits, by repeated division; `fuel` bounds the number of divisions. -/
def decLenAux : Nat → Nat → Nat
  | 0, _ => 1
  | fuel + 1, n => if n < 10 then 1 else decLenAux fuel (n / 10) + 1

/-- `len(x.BigInt().Text(10))` for a non-negative number (x/dex/amm/tick.go:64, :163). -/
def decLen (n : Nat) : Nat := decLenAux (Nat.log2 n + 1) n

/-- `char` (x/dex/amm/tick.go:60-65).  For a negative number the text includes the sign.  The Go function panics on
zero: see `char?`. -/
def char (x : Int) : Nat := decLen x.natAbs + (if x < 0 then 1 else 0) - 1

/-- `pow10(n)` (x/dex/amm/tick.go:68-72) as a raw number; `big.Int.Exp` with a negative exponent yields 1. -/
def pow10 (n : Int) : Int := 10 ^ n.toNat

/-- Loop of `isPow10` (x/dex/amm/tick.go:86-92). -/
def isPow10Loop : Nat → Nat → Bool
  | 0, b => b == 1
  | fuel + 1, b => if 10 ≤ b then (if b % 10 ≠ 0 then false else isPow10Loop fuel (b / 10)) else b == 1

/-- `isPow10` (x/dex/amm/tick.go:75-93). -/
def isPow10 (x : Int) : Bool :=
  if x ≤ 0 then false
  else if x = 10 then true
  else isPow10Loop (Nat.log2 x.natAbs + 1) x.natAbs

/-- `PriceToDownTick` (x/dex/amm/tick.go:96-106) for a non-zero price (the Go code panics on zero, see
`priceToDownTick?`). -/
def priceToDownTick (price : Int) (prec : Nat) : Int :=
  let d : Int := (char price : Int) - prec
  if 0 < d then (price.tdiv (10 ^ d.toNat)) * 10 ^ d.toNat else price

/-- `UpTick` (x/dex/amm/tick.go:119-127). -/
def upTick (price : Int) (prec : Nat) : Int :=
  let tick := priceToDownTick price prec
  if tick = price then price + pow10 ((char price : Int) - prec)
  else tick + pow10 ((char tick : Int) - prec)

/-- `PriceToUpTick` (x/dex/amm/tick.go:110-116). -/
def priceToUpTick (price : Int) (prec : Nat) : Int :=
  let tick := priceToDownTick price prec
  if tick ≠ price then upTick tick prec else tick

/-- `DownTick` (x/dex/amm/tick.go:131-144). -/
def downTick (price : Int) (prec : Nat) : Int :=
  let tick := priceToDownTick price prec
  if tick = price then
    let l : Int := char price
    let d := if isPow10 price then pow10 (l - prec - 1) else pow10 (l - prec)
    price - d
  else tick

/-- `HighestTick` (x/dex/amm/tick.go:147-152). -/
def highestTick (prec : Nat) : Int := priceToDownTick (2 ^ 300 - 1) prec

/-- `LowestTick` (x/dex/amm/tick.go:155-157): `LegacyNewDecWithPrec(1, 18-prec)` is `10^prec` units; the library
panics when `prec > 18` (see `lowestTick?`). -/
def lowestTick (prec : Nat) : Int := 10 ^ prec

/-- `TickToIndex` (x/dex/amm/tick.go:161-173). -/
def tickToIndex (price : Int) (prec : Nat) : Int :=
  let l : Int := ((decLen price.natAbs : Int) + (if price < 0 then 1 else 0)) - 1
  let d := l - prec
  let b := if 0 < d then price.tdiv (10 ^ d.toNat) else price
  let p : Int := 10 ^ prec
  d * 9 * p + (b - p)

/-- `TickFromIndex` (x/dex/amm/tick.go:177-187). -/
def tickFromIndex (i : Int) (prec : Nat) : Int :=
  let p : Int := 10 ^ prec
  let l := i.tdiv (9 * p) + prec
  let t := p + i.tmod (p * 9)
  if l > prec then t * 10 ^ (l - prec).toNat else t

/-- `RoundTickIndex` (x/dex/amm/tick.go:190-192). -/
def roundTickIndex (i : Int) : Int := (i + 1).tdiv 2 * 2

/-- `RoundPrice` (x/dex/amm/tick.go:195-201). -/
def roundPrice (price : Int) (prec : Nat) : Int :=
  let tick := priceToDownTick price prec
  if price = tick then price else tickFromIndex (roundTickIndex (tickToIndex tick prec)) prec

/-- `TickGap` (x/dex/amm/tick.go:204-208). -/
def tickGap (price : Int) (prec : Nat) : Int :=
  let tick := priceToDownTick price prec
  pow10 ((char tick : Int) - prec)

/-- `RandomTick` (x/dex/amm/tick.go:213-219); `rnd n` is the result of `r.Intn(n)`. -/
def randomTick (rnd : Int → Int) (minPrice maxPrice : Int) (prec : Nat) : Int :=
  let minIdx := tickToIndex (priceToUpTick minPrice prec) prec
  let maxIdx := tickToIndex (priceToDownTick maxPrice prec) prec
  tickFromIndex (minIdx + rnd (maxIdx - minIdx)) prec

/-- Panicking version of `char` (x/dex/amm/tick.go:60-65): `none` is the panic on zero. -/
def char? (x : Int) : Option Nat := if x = 0 then none else some (char x)

/-- `PriceToDownTick` with its panic (x/dex/amm/tick.go:96-106): `none` on zero. -/
def priceToDownTick? (price : Int) (prec : Nat) : Option Int :=
  if price = 0 then none else some (priceToDownTick price prec)

/-- `PriceToUpTick` with its panic (x/dex/amm/tick.go:110-116): `none` on zero. -/
def priceToUpTick? (price : Int) (prec : Nat) : Option Int :=
  if price = 0 then none else some (priceToUpTick price prec)

/-- `LowestTick` with the library panic of `LegacyNewDecWithPrec` on a negative precision
(x/dex/amm/tick.go:155-157). -/
def lowestTick? (prec : Nat) : Option Int := if prec ≤ 18 then some (lowestTick prec) else none

end Verif.Amm

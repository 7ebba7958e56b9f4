/-!
# Fixed-point decimals (`cosmossdk.io/math` `LegacyDec`) and integers (`sdk.Int`)

The library is an external dependency (v1.3.0) that is not in the sandbox; the rules below are re-stated from it and
are part of the trusted base.  A `LegacyDec` is an integer counting units of `10^-18`; an `sdk.Int` is an integer.
Arithmetic is unbounded here (the library panics above 315 bits resp. 256 bits; those panics are modelled explicitly
only where the code catches them, see `Verif.Model.Pool`).
-/
namespace Verif

namespace Dec

/-- `10^18`, the raw representation of `1` (`LegacyOneDec`, used at x/dex/amm/util.go:14). -/
def one : Int := 1000000000000000000

/-- `10^18` is `one`; `half` is used by half-even rounding. -/
def half : Int := 500000000000000000

/-- Library `chopPrecisionAndRound` on a non-negative number: divide by `10^18`, round half to even. -/
def chopRoundNN (d : Int) : Int :=
  let q := d / one
  let r := d % one
  if r < half then q
  else if half < r then q + 1
  else if q % 2 = 0 then q else q + 1

/-- Library `chopPrecisionAndRound`: sign-symmetric half-even division by `10^18`. -/
def chopRound (d : Int) : Int :=
  if 0 ≤ d then chopRoundNN d else - chopRoundNN (-d)

/-- `LegacyDec.Mul` (used e.g. at x/dex/amm/util.go:155). -/
def mul (a b : Int) : Int := chopRound (a * b)

/-- `LegacyDec.MulTruncate` (used e.g. at x/dex/amm/pool.go, `Withdraw`). -/
def mulTruncate (a b : Int) : Int := (a * b).tdiv one

/-- `LegacyDec.MulInt` (used e.g. at x/dex/amm/util.go:23): exact. -/
def mulInt (a : Int) (i : Int) : Int := a * i

/-- `Int.ToLegacyDec` / `LegacyNewDecFromInt`. -/
def ofInt (i : Int) : Int := i * one

/-- `LegacyDec.Quo` (used e.g. at x/dex/amm/util.go:131): scale twice, truncate, round half-even.
The library panics when `b = 0`. -/
def quo (a b : Int) : Int := chopRound ((a * one * one).tdiv b)

/-- `LegacyDec.QuoTruncate` (used at x/dex/amm/util.go:39): truncation toward zero.  Panics when `b = 0`. -/
def quoTruncate (a b : Int) : Int := (a * one).tdiv b

/-- `LegacyDec.QuoRoundUp` (used in x/dex/amm/pool.go): quotient rounded up for positive operands.
Panics when `b = 0`. -/
def quoRoundUp (a b : Int) : Int :=
  let q := (a * one).tdiv b
  if 0 < (a * one).tmod b then q + 1 else q

/-- `LegacyDec.Ceil`: least integer decimal not below. -/
def ceil (a : Int) : Int :=
  let q := a.tdiv one
  if 0 < a.tmod one then (q + 1) * one else q * one

/-- `LegacyDec.TruncateInt`: integer part, toward zero. -/
def truncateInt (a : Int) : Int := a.tdiv one

end Dec
end Verif

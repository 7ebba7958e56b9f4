import Verif.Model.Dec
/-!
# Shared helpers: model of types/utils.go

Instants are integers (nanoseconds).  `DivMod` is on unbounded integers; for Go's fixed-width types the model is exact when
`x % y + y` and `x - r` do not overflow.
-/
namespace Verif.Util
open Verif

/-- `GetShareValue` (types/utils.go:22-24). -/
def getShareValue (amount ratio : Int) : Int := Dec.truncateInt (Dec.mulTruncate (Dec.ofInt amount) ratio)

/-- `StrIntMap.AddOrSet` (types/utils.go:29-35); a map is a function to optional values. -/
def addOrSet {κ : Type} [DecidableEq κ] (m : κ → Option Int) (key : κ) (value : Int) : κ → Option Int :=
  fun k => if k = key then (match m key with | none => some value | some v => some (v + value)) else m k

/-- `DateRangesOverlap` (types/utils.go:49-51). -/
def dateRangesOverlap (startA endA startB endB : Int) : Bool := decide (startA < endB) && decide (endA > startB)

/-- `DateRangeIncludes` (types/utils.go:55-57). -/
def dateRangeIncludes (start stop target : Int) : Bool := decide (stop > target) && !decide (start > target)

/-- `DecApproxEqual` (types/utils.go:126-134); `none` is the panic of a division by zero. -/
def decApproxEqual (a b : Int) : Option Bool :=
  let (a, b) := if b > a then (b, a) else (a, b)
  if a = 0 ∧ b = 0 then some true
  else if a = 0 then none
  else some (decide (Dec.quo (a - b) a ≤ 1000000000000000))

/-- `DivMod` (types/utils.go:253-257); Go's `%` and `/` truncate towards zero. -/
def divMod (x y : Int) : Int × Int :=
  let r := (x.tmod y + y).tmod y
  ((x - r).tdiv y, r)

/-- `MinInt` (types/utils.go:260-265). -/
def minInt (a b : Int) : Int := if a < b then a else b

/-- `Filter` (types/utils.go:280-288). -/
def filter {α : Type} (s : List α) (f : α → Bool) : List α :=
  s.foldl (fun r x => if f x then r ++ [x] else r) []

/-- A value a Go function panics with: a string, or anything else (for example an error value). -/
inductive PanicVal where
  | str (s : List Char)
  | other (id : Nat)
  deriving DecidableEq

/-- What running a Go function leads to: the resulting state, or a panic. -/
inductive Run (σ : Type) where
  | returns (s : σ)
  | panics (v : PanicVal) (s : σ)

/-- Go `strings.Contains`. -/
def contains (sub : List Char) : List Char → Bool
  | [] => sub.isPrefixOf []
  | c :: cs => sub.isPrefixOf (c :: cs) || contains sub cs

/-- `IsOverflow` (types/utils.go:237-244); `strings.ToLower` is taken on ASCII letters only. -/
def isOverflow : PanicVal → Bool
  | .str s =>
    let s := s.map Char.toLower
    contains "overflow".toList s || "out of bound".toList.isSuffixOf s
  | .other _ => false

/-- `SafeMath` (types/utils.go:223-234) on functions that read and write a state. -/
def safeMath {σ : Type} (f onOverflow : σ → Run σ) (s : σ) : Run σ :=
  match f s with
  | .returns t => .returns t
  | .panics v t => if isOverflow v then onOverflow t else .panics v t

end Verif.Util

/-!
# Specification of price ticks, independent of the code

A price (a positive number of `10^-18` units) is a tick of precision `prec` iff it has at most `prec + 1`
significant decimal digits.
-/
namespace Verif.Spec

/-- `t` is a positive number with at most `prec + 1` significant decimal digits. -/
def IsTick (prec : Nat) (t : Int) : Prop :=
  ∃ m e : Nat, 0 < m ∧ m < 10 ^ (prec + 1) ∧ t = (m : Int) * 10 ^ e

/-- `t` is the greatest tick not above `p`. -/
def IsFloorTick (prec : Nat) (p t : Int) : Prop :=
  IsTick prec t ∧ t ≤ p ∧ ∀ u, IsTick prec u → u ≤ p → u ≤ t

/-- `t` is the least tick not below `p`. -/
def IsCeilTick (prec : Nat) (p t : Int) : Prop :=
  IsTick prec t ∧ p ≤ t ∧ ∀ u, IsTick prec u → p ≤ u → t ≤ u

/-- `t` is the least tick strictly above `p`. -/
def IsNextTick (prec : Nat) (p t : Int) : Prop :=
  IsTick prec t ∧ p < t ∧ ∀ u, IsTick prec u → p < u → t ≤ u

/-- `t` is the greatest tick strictly below `p`. -/
def IsPrevTick (prec : Nat) (p t : Int) : Prop :=
  IsTick prec t ∧ t < p ∧ ∀ u, IsTick prec u → u < p → u ≤ t

end Verif.Spec

import Verif.Model.Bank
import Mathlib.Algebra.BigOperators.Group.Finset.Basic
/-! # Specification vocabulary for balances (C42, C46) -/
namespace Verif.Spec
open Verif.Dex

/-- No account is overdrawn. -/
def NonNegative (b : Bank) : Prop := ∀ a d, 0 ≤ b.bal a d

/-- The supply of a denom is the sum of all balances: there is a finite set of accounts outside which the balance is zero and
over which the balances add up to the supply. -/
def SupplyIsSum (b : Bank) : Prop :=
  ∀ d, ∃ L : Finset Addr, (∀ a, a ∉ L → b.bal a d = 0) ∧ (∑ a ∈ L, b.bal a d) = b.supply d

/-- What account `a` gains in denom `d` from one transfer (negative if it pays). -/
def transferEffect (t : SendTx) (a : Addr) (d : Denom) : Int :=
  (if a = t.dst then amountOf t.amt d else 0) - (if a = t.src then amountOf t.amt d else 0)

/-- Sequential execution of single transfers, without grouping. -/
def sendAll : List SendTx → Bank → Option Bank
  | [], b => some b
  | t :: ts, b => (b.send t.src t.dst t.amt).bind (sendAll ts)

end Verif.Spec

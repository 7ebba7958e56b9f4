import Verif.Model.Pool
import Verif.Spec.View
import Verif.Spec.Order
import Verif.Spec.Tick
/-! # Specification vocabulary for pools (C11-C15, C51) -/
namespace Verif.Spec
open Verif Verif.Amm

/-- A pool with non-negative reserves, non-negative translation and positive price bounds.  (For a basic pool only the
first two conditions say anything.) -/
structure SoundPool (p : Pool) : Prop where
  rx_nonneg : 0 ≤ p.rx
  ry_nonneg : 0 ≤ p.ry
  transX_nonneg : 0 ≤ p.transX
  transY_nonneg : 0 ≤ p.transY
  bounds_pos : ∀ r, p.range = some r → 0 < r.minPrice ∧ 0 < r.maxPrice


/-- The pool's buy orders `(price, amount)` have been traded, in any part: of each order at most its amount was bought,
paying at most the order's limit (rounded up).  The reserves went from `(X, Y)` to `(X', Y')`. -/
inductive BoughtFrom : List (Int × Int) → Int → Int → Int → Int → Prop
  | nil {X Y : Int} : BoughtFrom [] X Y X Y
  | cons {t a b c X Y X' Y' : Int} {l : List (Int × Int)} (hb : 0 ≤ b) (hba : b ≤ a)
      (hc : c ≤ quoteUp t b) (h : BoughtFrom l (X - c) (Y + b) X' Y') : BoughtFrom ((t, a) :: l) X Y X' Y'

/-- The pool's sell orders `(price, amount)` have been traded, in any part: of each order at most its amount was sold,
receiving at least the order's limit (truncated).  The reserves went from `(X, Y)` to `(X', Y')`. -/
inductive SoldFrom : List (Int × Int) → Int → Int → Int → Int → Prop
  | nil {X Y : Int} : SoldFrom [] X Y X Y
  | cons {t a b c X Y X' Y' : Int} {l : List (Int × Int)} (hb : 0 ≤ b) (hba : b ≤ a)
      (hc : quoteDown t b ≤ c) (h : SoldFrom l (X + c) (Y - b) X' Y') : SoldFrom ((t, a) :: l) X Y X' Y'

/-- The buy orders a pool has to offer from `start` downwards: at the first tick at or below `start` and not below
`lowest` where the pool would buy at least 100, an order for everything it buys there; then the same again for the pool
after this order is filled (paid in full, rounded up), starting at the order's price minus the price gap; until there is
no such tick or nothing is left to pay with.  Every tick above the first order would have bought less than 100. -/
def BuyLadder (prec : Nat) (poolPrice lowest : Int) : Pool → Int → List (Int × Int) → Prop
  | p, start, [] => ∀ u, IsTick prec u → lowest ≤ u → u ≤ start → ∃ b, p.buyAmountOver u = some b ∧ b < 100
  | p, start, (t, a) :: l =>
    IsTick prec t ∧ lowest ≤ t ∧ t ≤ start ∧ p.buyAmountOver t = some a ∧ 100 ≤ a ∧
    (∀ u, IsTick prec u → t < u → u ≤ start → ∃ b, p.buyAmountOver u = some b ∧ b < 100) ∧
    ((p.rx = quoteUp t a ∧ l = []) ∨
      (quoteUp t a < p.rx ∧ BuyLadder prec poolPrice lowest { p with rx := p.rx - quoteUp t a, ry := p.ry + a }
        (Dec.mul t (Dec.one - poolOrderPriceGapRatio poolPrice t)) l))

/-- The sell orders a pool has to offer from `start` upwards: at the first tick at or above `start` and not above
`highest` where the pool would sell at least 100 for at least one quote coin, an order for everything it sells there; then
the same again for the pool after this order is filled, starting at the order's price plus the price gap; until there is
no such tick or at most 100 base coins are left. -/
def SellLadder (prec : Nat) (poolPrice highest : Int) : Pool → Int → List (Int × Int) → Prop
  | p, start, [] => ∀ u, IsTick prec u → start ≤ u → u ≤ highest →
      ∃ b, p.sellAmountUnder u = some b ∧ (b < 100 ∨ quoteDown u b = 0)
  | p, start, (t, a) :: l =>
    IsTick prec t ∧ start ≤ t ∧ t ≤ highest ∧ p.sellAmountUnder t = some a ∧ 100 ≤ a ∧ 0 < quoteDown t a ∧
    (∀ u, IsTick prec u → start ≤ u → u < t → ∃ b, p.sellAmountUnder u = some b ∧ (b < 100 ∨ quoteDown u b = 0)) ∧
    ((p.ry - a ≤ 100 ∧ l = []) ∨
      (100 < p.ry - a ∧ SellLadder prec poolPrice highest { p with rx := p.rx + quoteDown t a, ry := p.ry - a }
        (Dec.mul t (Dec.one + poolOrderPriceGapRatio poolPrice t)) l))

end Verif.Spec

import Verif.Model.View
import Verif.Spec.Tick
import Verif.Spec.Order
/-! # Specification vocabulary for order views (C28-C31, C53) -/
namespace Verif.Spec
open Verif Verif.Amm

/-- Total of the matchable amounts, each at the order's own limit price, of the orders of direction `d` in `ps` whose
limit price satisfies `q`. -/
def ownDepth (h : Heap) (ps : List Nat) (d : Dir) (q : Int → Prop) [DecidablePred q] : Int :=
  ((ps.filter (fun p => decide ((h p).dir = d ∧ q (h p).price))).map
    (fun p => matchableAmount (h p) (h p).price)).sum

/-- `m` is the largest amount that can trade at one price. -/
structure IsBestMatch (v : OrderBookView) (m : Int) : Prop where
  nonneg : 0 ≤ m
  bound : ∀ p, min (v.buyAmountOver p true) (v.sellAmountUnder p true) ≤ m
  attained : m = 0 ∨ ∃ p, m = min (v.buyAmountOver p true) (v.sellAmountUnder p true)

/-- A view whose buy depth does not grow, and whose sell depth does not shrink, as the (positive) price rises; nobody
sells for a price of zero. -/
structure MonotoneView (ov : OrderView) : Prop where
  buy_anti : ∀ p q, 0 < p → p ≤ q → ov.buyAmountOver q true ≤ ov.buyAmountOver p true
  sell_mono : ∀ p q, 0 ≤ p → p ≤ q → ov.sellAmountUnder p true ≤ ov.sellAmountUnder q true
  buy_nonneg : ∀ p, 0 < p → 0 ≤ ov.buyAmountOver p true
  sell_nonneg : ∀ p, 0 ≤ p → 0 ≤ ov.sellAmountUnder p true
  sell_zero : ov.sellAmountUnder 0 true = 0

/-- Tick `t` is a price at which the sell side alone covers all buys strictly above `t`. -/
def SellCovers (ov : OrderView) (prec : Nat) (t : Int) : Prop :=
  0 < ov.sellAmountUnder t true ∧ ∀ u, IsNextTick prec t u → ov.buyAmountOver u true ≤ ov.sellAmountUnder t true

/-- Tick `t` is a price at which the buy side alone covers all sells strictly below `t`. -/
def BuyCovers (ov : OrderView) (prec : Nat) (t : Int) : Prop :=
  0 < ov.buyAmountOver t true ∧ ∀ u, IsPrevTick prec t u → ov.sellAmountUnder u true ≤ ov.buyAmountOver t true

/-- `t` is a tick of the supported price range. -/
def InRange (prec : Nat) (t : Int) : Prop := IsTick prec t ∧ lowestTick prec ≤ t ∧ t ≤ highestTick prec

/-- `t` is the lowest tick of the range at which the sells cover the buys above. -/
def LowestSellCover (ov : OrderView) (prec : Nat) (t : Int) : Prop :=
  InRange prec t ∧ SellCovers ov prec t ∧ ∀ u, InRange prec u → SellCovers ov prec u → t ≤ u

/-- `t` is the highest tick of the range at which the buys cover the sells below. -/
def HighestBuyCover (ov : OrderView) (prec : Nat) (t : Int) : Prop :=
  InRange prec t ∧ BuyCovers ov prec t ∧ ∀ u, InRange prec u → BuyCovers ov prec u → u ≤ t

end Verif.Spec

import Verif.Spec.Tick
import Verif.Model.Keeper
import Verif.Spec.State
/-! # Specification vocabulary for price limits (C06) -/
namespace Verif.Spec
open Verif Verif.Dex

/-- Parameters for which price limits make sense: a limit ratio below one and a tick precision of at most 18 digits. -/
structure SaneParams (p : Params) : Prop where
  ratio : 0 ≤ p.maxPriceLimitRatio ∧ p.maxPriceLimitRatio < Dec.one
  prec : p.tickPrec ≤ 18

/-- The decimal `c` is the nearest one to the product of the decimals `a` and `b` (all in units of `10^-18`), the even one of two
equally near ones. -/
def RoundedProduct (a b c : Int) : Prop :=
  2 * (a * b) - 10 ^ 18 ≤ 2 * (c * 10 ^ 18) ∧ 2 * (c * 10 ^ 18) ≤ 2 * (a * b) + 10 ^ 18 ∧
  (2 * (a * b) - 10 ^ 18 = 2 * (c * 10 ^ 18) ∨ 2 * (c * 10 ^ 18) = 2 * (a * b) + 10 ^ 18 → c % 2 = 0)

/-- The window of allowed prices: from the least tick not below `last * (1 - ratio)` to the greatest tick not above
`last * (1 + ratio)`, the products rounded to 18 digits. -/
def PriceWindow (prec : Nat) (last ratio lo hi : Int) : Prop :=
  ∃ x y, RoundedProduct last (10 ^ 18 - ratio) x ∧ RoundedProduct last (10 ^ 18 + ratio) y ∧
    IsCeilTick prec x lo ∧ IsFloorTick prec y hi

/-- The tick price nearest to the price asked for on the cautious side of the order: down for a buy, up for a sell. -/
def TickFor (dir : Amm.Dir) (prec : Nat) (price tick : Int) : Prop :=
  match dir with
  | .buy => IsFloorTick prec price tick
  | .sell => IsCeilTick prec price tick

end Verif.Spec

namespace Verif.Spec
open Verif Verif.Dex

/-- The conditions under which a limit order is accepted. -/
structure LimitAcceptable (m : MsgLimitOrder) (s : State) (p : Pair) (tick needed : Int) : Prop where
  /-- the pair exists -/
  pair : p ∈ s.pairs ∧ p.id = m.pairId
  /-- the orderer has the coins offered -/
  funds : m.offer.amt ≤ s.bank.bal (.user m.orderer) m.offer.denom
  lifespan : m.lifespan ≤ s.params.maxOrderLifespan
  /-- the coins are those of the pair -/
  denoms : m.offer.denom = (if m.dir = .buy then p.quote else p.base) ∧ m.demand = (if m.dir = .buy then p.base else p.quote)
  /-- the price is within the limits around the last price, or without one between the lowest and the highest tick -/
  limits : match p.lastPrice with
    | some last => ∃ lo hi, priceLimits last s.params.maxPriceLimitRatio s.params.tickPrec = some (lo, hi) ∧ lo ≤ m.price ∧ m.price ≤ hi
    | none => s.params.tickPrec ≤ 18 ∧ Amm.lowestTick s.params.tickPrec ≤ m.price ∧ m.price ≤ Amm.highestTick s.params.tickPrec
  /-- the tick price, and the offer needed at that price, which the coins offered cover -/
  onTick : TickFor m.dir s.params.tickPrec m.price tick
  covered : NeededOffer m.dir tick m.amt needed ∧ needed ≤ m.offer.amt
  /-- the order is not too small -/
  size : 100 ≤ m.amt ∧ 100 * 10 ^ 18 ≤ tick * m.amt

end Verif.Spec

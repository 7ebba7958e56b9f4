import Verif.Model.Msgs
import Verif.Spec.State
/-! # Specification of the bounds messages must respect (C50), with the numbers written out -/
namespace Verif.Spec
open Verif Verif.Dex

/-- Positive amounts of pairwise different denoms. -/
def GoodCoins (cs : Coins) : Prop := (∀ c ∈ cs, 0 < c.amt) ∧ (cs.map (·.denom)).Nodup

/-- Bounds on an order's amount and offer coin, shared by all orders: between 100 and `10^40`, different coins, a lifespan that
is not negative and an existing pair id. -/
structure OrderBounds (pairId : Nat) (offer : Coin) (demand : Denom) (amt lifespan : Int) : Prop where
  pair : 1 ≤ pairId
  offerAmt : 100 ≤ offer.amt ∧ offer.amt ≤ 10 ^ 40
  amount : 100 ≤ amt ∧ amt ≤ 10 ^ 40
  denoms : offer.denom ≠ demand
  life : 0 ≤ lifespan

/-- Bounds on a ranged pool's prices: `10^-15 ≤ min < max ≤ 10^20`, the initial price between them, and the relative gap (rounded
to 18 digits) at least 0.1%. -/
structure RangeBounds (lo hi initial : Int) : Prop where
  low : 1000 ≤ lo
  high : hi ≤ 10 ^ 38
  order : lo < hi
  gap : 10 ^ 15 ≤ Dec.quo (hi - lo) lo
  start : lo ≤ initial ∧ initial ≤ hi

end Verif.Spec

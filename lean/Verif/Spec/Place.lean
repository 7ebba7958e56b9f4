import Verif.Spec.State
/-! # Specification vocabulary for order placement (C35) -/
namespace Verif.Spec
open Verif Verif.Dex

/-- The stored order `o` on the pair `p` is what the message asked for. -/
structure AsRequested (typ : OType) (orderer pairId : Nat) (dir : Amm.Dir) (offer : Coin) (demand : Denom) (amount lifespan : Int)
    (now : Int) (p : Pair) (o : OrderRec) : Prop where
  pair : p.id = pairId
  typ : o.typ = typ
  orderer : o.orderer = orderer
  dir : o.dir = dir
  amount : o.amount = amount
  offerDenom : o.offerDenom = offer.denom
  demandDenom : o.demandDenom = demand
  /-- never more than offered -/
  offer : o.offer ≤ offer.amt
  expireAt : o.expireAt = now + lifespan

end Verif.Spec

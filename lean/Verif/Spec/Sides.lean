import Verif.Model.Batch
/-! # Specification vocabulary: the sides a pool trades on in one batch (C54) -/
namespace Verif.Spec
open Verif Verif.Amm

/-- The order traded something. -/
def HasTraded (o : Order) : Prop := o.openAmt < o.amount

/-- Two orders of one pool that both traded are on the same side. -/
def OneSided (os : List Order) : Prop :=
  ∀ o ∈ os, ∀ o' ∈ os, ∀ id, o.kind = .pool id → o'.kind = .pool id → HasTraded o → HasTraded o' → o.dir = o'.dir

/-- A buy order that can buy nothing at the price `L` can buy nothing at any higher price. (Fails for an order of 100 base coins
whose value is 0.99 quote coins at `L` and 1 quote coin at a price above.) -/
def NoDust (L : Int) (o : Order) : Prop := o.dir = .buy → matchableAmount o L = 0 → ∀ p, L ≤ p → matchableAmount o p = 0

/-- The outcome of the matching of a pair's orders and pools at a state, if it trades: the steps of `ExecuteMatching` up to the
application of the result (x/dex/keeper/swap.go:288-344). -/
def matchOutcome (env : Dex.Env) (pair : Dex.Pair) (s : Dex.State) : Option Dex.MatchOut :=
  match Dex.forEach Dex.collectOrder (s.ordersOf pair.id) (s, []) with
  | none => none
  | some (s1, os) =>
    match Dex.forEach (Dex.collectPool env pair) (s1.poolsOf pair.id) (s1, []) with
    | none => none
    | some (s2, pools) => (Dex.keeperMatch env s2.params os pools pair.lastPrice).join

end Verif.Spec

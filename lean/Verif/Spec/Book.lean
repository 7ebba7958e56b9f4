import Verif.Model.OrderBookQuery
import Verif.Spec.View
/-! # Specification vocabulary for the order book query (C49) -/
namespace Verif.Spec
open Verif Verif.Amm

/-- `L` reports the sell side of cumulative depth `depth` (amount offered at or below a price) in buckets that end at the
multiples of `unit`, worst price first: the cheapest `maxTicks` non-empty buckets that end at or below `highest`. -/
structure ReportsSells (depth : Int → Int) (unit highest : Int) (maxTicks : Nat) (L : List Level) : Prop where
  /-- each entry is a bucket inside the limit and carries exactly the depth between its two ends -/
  sound : ∀ l ∈ L, unit ∣ l.price ∧ l.price ≤ highest ∧ l.userAmt = depth l.price - depth (l.price - unit) ∧ 0 < l.userAmt ∧
    l.poolAmt = 0
  sorted : L.Pairwise (fun a b => b.price < a.price)
  len : L.length ≤ maxTicks
  /-- no non-empty bucket is missing, except beyond the last of `maxTicks` reported ones -/
  complete : ∀ p, unit ∣ p → p ≤ highest → depth (p - unit) < depth p →
    (∃ l ∈ L, l.price = p) ∨ (L.length = maxTicks ∧ ∀ l ∈ L, l.price < p)
  /-- up to every reported price the amounts add up to the depth at that price -/
  adds_up : ∀ l ∈ L, ((L.filter (fun x => decide (x.price ≤ l.price))).map (·.userAmt)).sum = depth l.price

/-- `L` reports the buy side of cumulative depth `depth` (amount bid at or above a price), best price first: the highest
`maxTicks` non-empty buckets that end at or above `lowest` (and 0). -/
structure ReportsBuys (depth : Int → Int) (unit lowest : Int) (maxTicks : Nat) (L : List Level) : Prop where
  sound : ∀ l ∈ L, unit ∣ l.price ∧ lowest ≤ l.price ∧ 0 ≤ l.price ∧ l.userAmt = depth l.price - depth (l.price + unit) ∧
    0 < l.userAmt ∧ l.poolAmt = 0
  sorted : L.Pairwise (fun a b => b.price < a.price)
  len : L.length ≤ maxTicks
  complete : ∀ p, unit ∣ p → lowest ≤ p → 0 ≤ p → depth (p + unit) < depth p →
    (∃ l ∈ L, l.price = p) ∨ (L.length = maxTicks ∧ ∀ l ∈ L, p < l.price)
  adds_up : ∀ l ∈ L, ((L.filter (fun x => decide (l.price ≤ x.price))).map (·.userAmt)).sum = depth l.price

/-- The `k`-th tick above `p` (each step is the next tick, C02). -/
def tickWalk (prec : Nat) (p : Int) : Nat → Int
  | 0 => p
  | k + 1 => upTick (tickWalk prec p k) prec

/-- Number of the ticks `p`, next, ..., `k`-th next at which something is offered for sale. -/
def sellTicksUpTo (v : OrderBookView) (prec : Nat) (p : Int) (k : Nat) : Nat :=
  ((List.range (k + 1)).filter (fun i => decide
    (v.sellAmountUnder (tickWalk prec p i) false < v.sellAmountUnder (tickWalk prec p i) true))).length

/-- `c` is the tick at which walking up from the best sell price `ls` ends: the first tick above `highest`, or by which
`maxTicks` sell ticks were seen, or beyond which nothing is offered. -/
def EndOfWalk (v : OrderBookView) (prec : Nat) (highest : Int) (maxTicks : Nat) (ls c : Int) : Prop :=
  let stop := fun k => highest < tickWalk prec ls k ∨ sellTicksUpTo v prec ls k = maxTicks ∨
    ∀ p, v.sellAmountUnder p true ≤ v.sellAmountUnder (tickWalk prec ls k) true
  ∃ k, c = tickWalk prec ls k ∧ stop k ∧ ∀ i < k, ¬ stop i

/-- `u` is the smallest price unit: the tick gap at the end of the walk up from the best sell price, or at the best buy price
if nothing is offered for sale. -/
def IsPriceUnit (v : OrderBookView) (prec : Nat) (highest : Int) (maxTicks : Nat) (u : Int) : Prop :=
  (∃ ls c, v.lowestSellPrice = some ls ∧ EndOfWalk v prec highest maxTicks ls c ∧ u = tickGap c prec) ∨
  (∃ hb, v.lowestSellPrice = none ∧ v.highestBuyPrice = some hb ∧ u = tickGap hb prec)

/-- The response `r` shows the view `v`: no base price and no books if the view is empty; otherwise the best price of the only
side, or the tick nearest to the middle of the two best prices, and one book per requested power `k` in ascending order, in
units of `u * 10^k`, that reports both sides within the limits. -/
structure ShowsView (v : OrderBookView) (lowest highest : Int) (prec : Nat) (powers : List Nat) (maxTicks : Nat)
    (r : PairResponse) : Prop where
  empty : v.highestBuyPrice = none → v.lowestSellPrice = none → r.basePrice = none ∧ r.books = []
  buys_only : ∀ b, v.highestBuyPrice = some b → v.lowestSellPrice = none → r.basePrice = some b
  sells_only : ∀ s, v.highestBuyPrice = none → v.lowestSellPrice = some s → r.basePrice = some s
  both : ∀ b s, v.highestBuyPrice = some b → v.lowestSellPrice = some s → r.basePrice = some (roundPrice ((b + s) / 2) prec)
  books : v.highestBuyPrice ≠ none ∨ v.lowestSellPrice ≠ none → ∃ u ks, IsPriceUnit v prec highest maxTicks u ∧ 0 < u ∧
    ks.Perm powers ∧ ks.Pairwise (· ≤ ·) ∧ List.Forall₂ (fun k b => b.unit = u * 10 ^ k ∧
      ReportsSells (fun p => v.sellAmountUnder p true) b.unit highest maxTicks b.sells ∧
      ReportsBuys (fun p => v.buyAmountOver p true) b.unit lowest maxTicks b.buys) ks r.books

/-- Total of the matchable amounts, at their own price, of the orders of `os` with direction `d` and a price satisfying `q`. -/
def depthOf (os : List Order) (d : Dir) (q : Int → Prop) [DecidablePred q] : Int :=
  ((os.filter (fun o => decide (o.dir = d ∧ q o.price))).map (fun o => matchableAmount o o.price)).sum

open Verif.Dex in
/-- `os` are the orders of the pair: its live user orders, then the orders that its pools which are not disabled place between
the price limits. -/
def BookOrders (env : Env) (s : State) (pair : Pair) (lo hi : Int) (os : List Order) : Prop :=
  ∃ pss, List.Forall₂ (fun (pool : PoolRec) orders => ∃ ap, ammPool env pool (s.bank.bal (.poolReserve pool.id) pair.quote)
      (s.bank.bal (.poolReserve pool.id) pair.base) 0 = some ap ∧ orders = poolOrders env.sqrt pool.id ap lo hi s.params.tickPrec)
      (s.pools.filter (fun p => p.pairId == pair.id && !p.disabled)) pss ∧
    os = (s.orders.filter (fun o => o.pairId == pair.id && o.status.isMatchable)).map newUserOrder ++ pss.flatten

open Verif.Dex in
/-- The response `r` shows the orders of its pair within the price limits around the last price: the view of the orders with
the amount `m` that can trade at one price taken off both sides (nothing is taken off a book that would trade completely). -/
def AnswersFor (env : Env) (s : State) (powers : List Nat) (n : Nat) (r : PairResponse) : Prop :=
  ∃ pair ∈ s.pairs, ∃ last lo hi os m, pair.id = r.pairId ∧ pair.lastPrice = some last ∧
    s.params.priceLimits last = some (lo, hi) ∧ BookOrders env s pair lo hi os ∧
    let v := makeView (heapOf os) (bookOf os)
    ShowsView v.match lo hi s.params.tickPrec powers n r ∧
    (∀ p, v.match.sellAmountUnder p true = max 0 (depthOf os .sell (fun x => x ≤ p) - m) ∧
      v.match.buyAmountOver p true = max 0 (depthOf os .buy (fun x => p ≤ x) - m)) ∧
    (IsBestMatch v m ∨ m = 0 ∧ ∃ k, IsBestMatch v k ∧ (∀ p, depthOf os .buy (fun x => p ≤ x) ≤ k) ∧
      ∀ p, depthOf os .sell (fun x => x ≤ p) ≤ k)

end Verif.Spec

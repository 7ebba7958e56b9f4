import Verif.Model.Match
/-!
# Specification vocabulary for orders and matching (C16-C27)

Prices are integers counting units of `10^-18`.  `/` below is floor division of integers.
-/
namespace Verif.Spec
open Verif Verif.Amm

/-- One whole quote coin per base coin. -/
def priceOne : Int := 10 ^ 18

/-- `⌊price * amt⌋` in whole quote coins. -/
def quoteDown (price amt : Int) : Int := price * amt / 10 ^ 18

/-- `⌈price * amt⌉` in whole quote coins. -/
def quoteUp (price amt : Int) : Int := -(-(price * amt) / 10 ^ 18)

/-- A live order: positive limit price, open amount between zero and the amount, has paid no more than offered and
(for a sell) still owns the open amount.  Every freshly created order is live (`live_fresh`). -/
structure Live (o : Order) : Prop where
  price_pos : 0 < o.price
  open_nonneg : 0 ≤ o.openAmt
  open_le : o.openAmt ≤ o.amount
  paid_nonneg : 0 ≤ o.paid
  paid_le : o.paid ≤ o.offer
  sell_open : o.dir = .sell → o.openAmt ≤ o.offer - o.paid
  received_nonneg : 0 ≤ o.received

/-- Is `price` acceptable for the order's limit? -/
def WithinLimit (o : Order) (price : Int) : Prop :=
  match o.dir with
  | .buy => price ≤ o.price
  | .sell => o.price ≤ price

/-- What one fill costs the order (in its offer coin). -/
def cost (d : Dir) (price amt : Int) : Int :=
  match d with
  | .buy => quoteUp price amt
  | .sell => amt

/-- What one fill yields the order (in its demand coin). -/
def gain (d : Dir) (price amt : Int) : Int :=
  match d with
  | .buy => amt
  | .sell => quoteDown price amt

/-- The order can pay for its whole open amount at its own limit price. -/
def Funded (o : Order) : Prop := cost o.dir o.price o.openAmt ≤ o.offer - o.paid

/-- The fills of one order. -/
def fillsOf (log : List Fill) (p : Nat) : List Fill := log.filter (fun f => f.ptr == p)

/-- `after` is the result of executing exactly the fills `log` on the orders `before`, every fill being positive, within
the limit price of its order, and no order paying more than it offered or being filled beyond its amount. -/
structure FairExecution (before after : Heap) (log : List Fill) : Prop where
  fill_pos : ∀ f ∈ log, 0 < f.amt ∧ 0 < f.price
  fill_limit : ∀ f ∈ log, WithinLimit (before f.ptr) f.price
  static : ∀ p, (after p).dir = (before p).dir ∧ (after p).price = (before p).price ∧
    (after p).amount = (before p).amount ∧ (after p).offer = (before p).offer ∧ (after p).kind = (before p).kind
  opened : ∀ p, (after p).openAmt = (before p).openAmt - ((fillsOf log p).map (·.amt)).sum
  paid : ∀ p, (after p).paid = (before p).paid + ((fillsOf log p).map (fun f => cost (before p).dir f.price f.amt)).sum
  received : ∀ p, (after p).received =
    (before p).received + ((fillsOf log p).map (fun f => gain (before p).dir f.price f.amt)).sum
  live : ∀ p, Live (before p) → Live (after p)

/-- Total base coin received by buy orders in the log. -/
def baseBought (h : Heap) (log : List Fill) : Int :=
  (log.map (fun f => match (h f.ptr).dir with | .buy => f.amt | .sell => 0)).sum

/-- Total base coin paid by sell orders in the log. -/
def baseSold (h : Heap) (log : List Fill) : Int :=
  (log.map (fun f => match (h f.ptr).dir with | .buy => 0 | .sell => f.amt)).sum

/-- Total quote coin paid by buy orders in the log. -/
def quotePaid (h : Heap) (log : List Fill) : Int :=
  (log.map (fun f => match (h f.ptr).dir with | .buy => quoteUp f.price f.amt | .sell => 0)).sum

/-- Total quote coin received by sell orders in the log. -/
def quoteReceived (h : Heap) (log : List Fill) : Int :=
  (log.map (fun f => match (h f.ptr).dir with | .buy => 0 | .sell => quoteDown f.price f.amt)).sum

/-- Older batches first; batch id 0 (orders of the current batch made by pools) last. -/
def Older (a b : Nat) : Prop := a ≠ 0 ∧ (b = 0 ∨ a < b)

/-- Total matchable amount, at price `price`, of those orders of `ps` that satisfy `q`. -/
def depth (h : Heap) (ps : List Nat) (price : Int) (q : Order → Bool) : Int :=
  ((ps.filter (fun p => q (h p))).map (fun p => matchableAmount (h p) price)).sum

/-- The proportional share of order `p` when `amt` is distributed over `ps`, rounded down (the ratio to 18 decimals, then
the product to whole coins), and capped by what the order can take. -/
def proRata (h : Heap) (ps : List Nat) (amt price : Int) (p : Nat) : Int :=
  min (matchableAmount (h p) price) ((h p).amount * 10 ^ 18 / (ps.map (fun q => (h q).amount)).sum * amt / 10 ^ 18)

end Verif.Spec

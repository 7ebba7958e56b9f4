import Verif.Spec.History
import Verif.Spec.Order
import Verif.Spec.Price
/-! # Specification vocabulary: fills of stored orders, well-behaved chains (C36, C47, C59) -/
namespace Verif.Spec
open Verif Verif.Dex

/-- One fill of an order: the amount of base coin traded and the price. -/
structure Trade where
  amt : Int
  price : Int
  deriving DecidableEq, Repr

/-- A buyer accepts its limit price or less, a seller its limit price or more. -/
def Acceptable (o : OrderRec) (price : Int) : Prop :=
  match o.dir with
  | .buy => price ≤ o.price
  | .sell => o.price ≤ price

/-- `o'` is the order `o` after the given trades: each has a positive amount and an acceptable price; the open amount falls by
the amounts traded; the offer coin that remains falls by the payments (a buyer pays the quote value rounded up, a seller the
base coin sold); the coin received grows by the receipts (a buyer gets the base coin bought, a seller the quote value rounded
down). -/
structure FilledBy (trades : List Trade) (o o' : OrderRec) : Prop where
  terms : SameTerms o o'
  each : ∀ f ∈ trades, 0 < f.amt ∧ 0 < f.price ∧ Acceptable o f.price
  opened : o'.openAmt = o.openAmt - total (fun f => f.amt) trades
  paid : o'.remaining = o.remaining - total (fun f => cost o.dir f.price f.amt) trades
  received : o'.received = o.received + total (fun f => gain o.dir f.price f.amt) trades

/-- The state of an order is explained by trades since it was placed, within its limits: it traded no more than its amount and
paid no more than it offered. -/
structure Explained (o : OrderRec) : Prop where
  price : 0 < o.price
  amount : 0 < o.amount
  offer : NeededOffer o.dir o.price o.amount o.offer
  opened : 0 ≤ o.openAmt
  remaining : 0 ≤ o.remaining
  trades : ∃ trades, FilledBy trades { o with openAmt := o.amount, remaining := o.offer, received := 0 } o

/-- No pool has a negative price.  A basic pool never has; for a ranged pool it depends on the rounding of the square roots. -/
def PricesNonneg (env : Env) (s : State) : Prop :=
  ∀ pool ∈ s.pools, ∀ pair ∈ s.pairs, pair.id = pool.pairId → ∀ ap pp,
    ammPool env pool (s.bank.bal (.poolReserve pool.id) pair.quote) (s.bank.bal (.poolReserve pool.id) pair.base)
      (s.bank.supply (.pool pool.id)) = some ap → ap.price = some pp → 0 ≤ pp

/-- A state in which the parameters are sane, the dust collector is not the reserve account of a pool, and no pool has a
negative price. -/
structure SaneState (env : Env) (s : State) : Prop where
  params : SaneParams s.params
  dust : ∀ id, s.params.dustCollector ≠ .poolReserve id
  prices : PricesNonneg env s

/-- A history in which the state before every end of block was sane. -/
inductive SaneChain (env : Env) : State → Prop
  | genesis {s : State} (h : Genesis s) : SaneChain env s
  | step {s s' : State} (h : SaneChain env s) (op : Op) (hs : op = .endBlock → SaneState env s) (e : Dex.step env op s = some s') :
      SaneChain env s'

/-- The status of an order tells the truth about how much of it is open. -/
def StatusTrue (o : OrderRec) : Prop :=
  match o.status with
  | .notExecuted => o.openAmt = o.amount
  | .notMatched => o.openAmt = o.amount
  | .partiallyMatched => 0 < o.openAmt ∧ o.openAmt < o.amount
  | .completed => o.openAmt = 0
  | .canceled => 0 < o.openAmt
  | .expired => 0 < o.openAmt

end Verif.Spec

import Verif.Proofs.CheckedOrder
import Verif.Proofs.CheckedDeposit
import Verif.Proofs.CheckedDemo
/-!
# The size limits of the library's numbers (C74)

The other properties are stated with unbounded integers.  `Verif/Model/Checked.lean` repeats the amount functions with the
library's limits (decimals of 315 bits, integers of 256 bits), where `none` is a panic.
-/
namespace Verif.Props
open Verif Verif.Amm Verif.Dex Verif.Spec

set_option exponentiation.threshold 400

/-- C74: the square root of every number that can be stored is computed without an overflow. -/
theorem C74_roots (d : Int) (h : |d| < 2 ^ 315) : Checked.sqrt d = some (approxSqrt d) :=
  Checked.sqrt_eq (Checked.fits_iff.2 (abs_lt.1 h))

/-- With the largest number, an overflow would be near: the first guess is half of it. -/
example : Checked.sqrt (2 ^ 315 - 1) = some (approxSqrt (2 ^ 315 - 1)) ∧ approxSqrt (2 ^ 315 - 1) ≠ 0 :=
  ⟨C74_roots _ (by decide), by decide +kernel⟩

/-- C74: the price and the four order amounts of a basic pool whose reserves are not larger than the largest coin amount
(`10^40`) never overflow.  Missing: larger reserves. -/
theorem C74_basic_pool_partial (p : Pool) (hr : p.range = none) (hx : 0 ≤ p.rx ∧ p.rx ≤ 10 ^ 40) (hy : 0 ≤ p.ry ∧ p.ry ≤ 10 ^ 40)
    (price : Int) (hp : 0 ≤ price) :
    Checked.price p = p.price ∧
    Checked.buyAmountOver p price = p.buyAmountOver price ∧ Checked.sellAmountUnder p price = p.sellAmountUnder price ∧
    Checked.buyAmountTo p price = p.buyAmountTo approxSqrt price ∧ Checked.sellAmountTo p price = p.sellAmountTo approxSqrt price :=
  ⟨Checked.basic_price hr hx, Checked.basic_buyOver hr hx hy hp, Checked.basic_sellUnder hr hx hy, Checked.basic_buyTo hr hx hy hp,
    Checked.basic_sellTo hr hx hy⟩

example : ∃ p : Pool, p.range = none ∧ (0 ≤ p.rx ∧ p.rx ≤ 10 ^ 40) ∧ (0 ≤ p.ry ∧ p.ry ≤ 10 ^ 40) ∧
    (p.buyAmountOver 1).any (fun a => a = maxCoinAmount) = true ∧ (p.sellAmountUnder (10 ^ 38)).any (fun a => 0 < a) = true :=
  ⟨⟨10 ^ 39, 10 ^ 39, 10 ^ 39, none⟩, rfl, by decide, by decide, by decide +kernel, by decide +kernel⟩

/-- C74: a ranged pool with reserves up to `10^36` and a price range that the module accepts is built without an overflow, and
neither its price nor its four order amounts overflow.  Missing: larger reserves, see `C74_ranged_pool_overflows`. -/
theorem C74_ranged_pool_partial (rx ry ps minPrice maxPrice : Int) (hx : 0 ≤ rx ∧ rx ≤ 10 ^ 36) (hy : 0 ≤ ry ∧ ry ≤ 10 ^ 36)
    (h1 : minPoolPrice ≤ minPrice) (h2 : minPrice ≤ maxPrice) (h3 : maxPrice ≤ maxPoolPrice) :
    Checked.newRangedPool rx ry ps minPrice maxPrice = newRangedPool approxSqrt rx ry ps minPrice maxPrice ∧
    ∀ p, newRangedPool approxSqrt rx ry ps minPrice maxPrice = some p → ∀ price, 0 ≤ price →
      Checked.price p = p.price ∧
      Checked.buyAmountOver p price = p.buyAmountOver price ∧ Checked.sellAmountUnder p price = p.sellAmountUnder price ∧
      Checked.buyAmountTo p price = p.buyAmountTo approxSqrt price ∧ Checked.sellAmountTo p price = p.sellAmountTo approxSqrt price := by
  have a1 : (1000 : Int) ≤ minPrice := le_trans (by decide) h1
  have a3 : maxPrice ≤ 10 ^ 38 := le_trans h3 (by decide)
  refine ⟨Checked.newRanged_checked hx hy a1 h2 a3, fun p hp price h0 => ?_⟩
  obtain ⟨r, m⟩ := Checked.moderate_new hx hy a1 h2 a3 hp
  exact ⟨m.price_eq, m.buyOver h0, m.sellUnder, m.buyTo h0, m.sellTo⟩

example : (newRangedPool approxSqrt (10 ^ 35) (10 ^ 36) 1 (5 * 10 ^ 16) (10 ^ 38)).any (fun p =>
    (p.buyAmountOver (6 * 10 ^ 16)).any (fun a => 0 < a) && (p.sellAmountTo approxSqrt (10 ^ 20)).any (fun a => 0 < a)) = true := by
  decide +kernel

/-- The claim is false for very large reserves: a ranged pool with `10^70` units of the quote coin and a valid price range has
a translation, but it cannot be computed with the library's numbers. -/
theorem C74_ranged_pool_overflows : ∃ rx ry ps minPrice maxPrice : Int, minPoolPrice ≤ minPrice ∧ minPrice < maxPrice ∧
    maxPrice ≤ maxPoolPrice ∧ 0 ≤ ry ∧ 0 ≤ rx ∧ rx < 2 ^ 255 ∧
    (newRangedPool approxSqrt rx ry ps minPrice maxPrice).isSome = true ∧ Checked.newRangedPool rx ry ps minPrice maxPrice = none :=
  ⟨10 ^ 70, 0, 1, 1000, 1002, by decide, by decide, by decide, by decide, by decide, by decide, by decide +kernel, by decide +kernel⟩

/-- C74: the amounts of an order whose value (price times amount) can be stored are computed without an overflow: what it
offers, whether it is too small, and what is paid and received when it is filled. -/
theorem C74_order_amounts (o : Order) (price amt : Int) (hp : 0 ≤ price) (ha : 0 ≤ amt) (h : price * amt < 2 ^ 315) :
    Checked.offerCoinAmount o.dir price amt = some (offerCoinAmount o.dir price amt) ∧
    Checked.isTooSmallOrderAmount amt price = some (isTooSmallOrderAmount amt price) ∧
    Checked.fillAmounts o.dir amt price =
      some ((filledOrder o amt price).paid - o.paid, (filledOrder o amt price).received - o.received) :=
  ⟨Checked.offer_eq hp ha h, Checked.tooSmall_eq hp ha h, Checked.fill_eq hp ha h⟩

example : (10 ^ 38 : Int) * 10 ^ 40 < 2 ^ 315 ∧ offerCoinAmount .buy (10 ^ 38) (10 ^ 40) = 10 ^ 60 := by decide +kernel

/-- C74: the direction of the price is found without an overflow if no order is larger than the largest coin amount and the
value of every sell order at the last price can be stored.  Missing: sell orders whose value at the last price cannot be
stored; `C74_accepted_order_overflows` shows that such orders are accepted. -/
theorem C74_direction_partial (h : Heap) (ob : OrderBook) (lastPrice : Int) (hp : 0 < lastPrice)
    (ho : ∀ t ∈ ob.buys ++ ob.sells, ∀ i ∈ t.orders, 0 ≤ (h i).openAmt ∧ (h i).openAmt ≤ maxCoinAmount ∧ (h i).paid ≤ (h i).offer ∧
      (h i).offer - (h i).paid ≤ maxCoinAmount ∧ ((h i).dir = .sell → lastPrice * (h i).openAmt < 2 ^ 315))
    (hb : (ob.buys.flatMap (·.orders)).length ≤ 10 ^ 36) (hs : (ob.sells.flatMap (·.orders)).length ≤ 10 ^ 36) :
    Checked.priceDirection h ob lastPrice = some (priceDirection h ob lastPrice) := by
  have e : maxCoinAmount = 10 ^ 40 := by decide
  refine Checked.direction_eq hp (fun t ht i hi => ?_) (by unfold Checked.count; omega) (by unfold Checked.count; omega)
  obtain ⟨a, b, c, d, f⟩ := ho t ht i hi
  exact ⟨a, by omega, by omega, by omega, f⟩

/-- A book with a buy order of `10^39` units and a sell order of the largest amount, at the last price `10^9`: the price goes
down. -/
example :
    let os := [newBaseOrder .buy (11 * 10 ^ 26) (10 ^ 30) (11 * 10 ^ 38) (.pool 0),
      newBaseOrder .sell (9 * 10 ^ 26) (10 ^ 40) (10 ^ 40) (.pool 1)]
    (∀ t ∈ (bookOf os).buys ++ (bookOf os).sells, ∀ i ∈ t.orders, 0 ≤ (heapOf os i).openAmt ∧ (heapOf os i).openAmt ≤ maxCoinAmount ∧
      (heapOf os i).paid ≤ (heapOf os i).offer ∧ (heapOf os i).offer - (heapOf os i).paid ≤ maxCoinAmount ∧
      ((heapOf os i).dir = .sell → 10 ^ 27 * (heapOf os i).openAmt < 2 ^ 315)) ∧
    Checked.priceDirection (heapOf os) (bookOf os) (10 ^ 27) = some (priceDirection (heapOf os) (bookOf os) (10 ^ 27)) ∧
    priceDirection (heapOf os) (bookOf os) (10 ^ 27) = .decreasing := by
  decide +kernel

/-- A claim for every block is false: orders can be accepted (their own value can be stored) whose value at the last price
cannot.  In the reachable state `s` the matching of the pair panics when it looks for the direction of the price, and nothing
recovers from this at the end of a block: the chain halts. -/
theorem C74_accepted_order_overflows : ∃ env s, SaneChain env s ∧ SaneState env s ∧ ∃ pair lastPrice os s1,
    s.pairs = [pair] ∧ pair.lastPrice = some lastPrice ∧ s.pools = [] ∧
    forEach collectOrder (s.ordersOf pair.id) (s, []) = some (s1, os) ∧
    (∀ o ∈ os, o.price * o.amount < 2 ^ 315 ∧ o.amount ≤ maxCoinAmount) ∧
    Checked.priceDirection (heapOf os) (bookOf os) lastPrice = none := by
  obtain ⟨s, h1, h2, h3⟩ := Demo.whaleReach Demo.whaleOps (fun s =>
    match s.pairs with
    | [pair] => s.pools.isEmpty && pair.lastPrice.any fun lp => (forEach collectOrder (s.ordersOf pair.id) (s, [])).any fun r =>
        (r.2.all fun o => decide (o.price * o.amount < 2 ^ 315 ∧ o.amount ≤ maxCoinAmount)) &&
          (Checked.priceDirection (heapOf r.2) (bookOf r.2) lp).isNone
    | _ => false) (by decide +kernel)
  refine ⟨Demo.env, s, h1, h2, ?_⟩
  split at h3
  · rename_i pair hp
    rw [Bool.and_eq_true, Option.any_eq_true] at h3
    obtain ⟨e0, lp, e1, e2⟩ := h3
    rw [Option.any_eq_true] at e2
    obtain ⟨⟨s1, os⟩, e3, e4⟩ := e2
    rw [Bool.and_eq_true, List.all_eq_true] at e4
    exact ⟨pair, lp, os, s1, hp, e1, by simpa using e0, e3, fun o ho => of_decide_eq_true (e4.1 o ho), by simpa using e4.2⟩
  · cases h3

/-- C74: a deposit computed with the library's numbers is computed exactly, and there is no overflow as long as no amount is
above `10^36`. -/
theorem C74_deposit (rx ry ps x y : Int) :
    (∀ v, Checked.depositInner rx ry ps x y = some v → deposit false rx ry ps x y = some v) ∧
    (0 ≤ rx ∧ rx ≤ 10 ^ 36 → 0 ≤ ry ∧ ry ≤ 10 ^ 36 → 1 ≤ ps ∧ ps ≤ 10 ^ 36 → 0 ≤ x ∧ x ≤ 10 ^ 36 → 0 ≤ y ∧ y ≤ 10 ^ 36 →
      rx ≠ 0 ∨ ry ≠ 0 → Checked.depositInner rx ry ps x y = deposit false rx ry ps x y) := by
  refine ⟨fun v h => Checked.deposit_some h, fun h1 h2 h3 h4 h5 h6 => ?_⟩
  obtain ⟨v, hv⟩ := Option.isSome_iff_exists.1 (Checked.deposit_eq h1 h2 h3 h4 h5 h6)
  rw [hv, Checked.deposit_some hv]

example : Checked.depositInner (10 ^ 36) (10 ^ 36) (10 ^ 36) (10 ^ 36) (10 ^ 35) = some (10 ^ 35, 10 ^ 35, 10 ^ 35) ∧
    Checked.depositInner 1 1 (10 ^ 40) (10 ^ 40) (10 ^ 40) = none := by decide +kernel

/-- C74: a withdrawal never overflows while the reserves are not above `10^76`. -/
theorem C74_withdraw (rx ry ps pc feeRate : Int) (hx : 0 ≤ rx ∧ rx ≤ 10 ^ 76) (hy : 0 ≤ ry ∧ ry ≤ 10 ^ 76) (hps : 1 ≤ ps)
    (hpc : 0 ≤ pc ∧ pc < ps) (hf : 0 ≤ feeRate ∧ feeRate ≤ Dec.one) :
    Checked.withdrawInner rx ry ps pc feeRate = withdraw false rx ry ps pc feeRate := by
  obtain ⟨v, hv⟩ := Option.isSome_iff_exists.1 (Checked.withdraw_eq hx hy hps ⟨hpc.1, by omega⟩ hf)
  rw [hv, Checked.withdraw_some (by omega) hv]

example : Checked.withdrawInner (10 ^ 76) 3 (10 ^ 70) (10 ^ 69) (10 ^ 15) = some (999 * 10 ^ 72, 0) := by decide +kernel

end Verif.Props

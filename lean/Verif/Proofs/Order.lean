import Verif.Proofs.Basic
/-! Helper lemmas about order amounts (x/dex/amm/util.go:18-66). -/
namespace Verif.Amm
open Verif

theorem one_eq : Dec.one = 1000000000000000000 := rfl
theorem one_pos : 0 < Dec.one := by decide

theorem quoteFloor_eq {p a : Int} (h : 0 ≤ p * a) : quoteFloor p a = p * a / Dec.one := by
  unfold quoteFloor Dec.truncateInt Dec.mulInt
  exact Int.tdiv_eq_ediv_of_nonneg h

theorem quoteFloor_spec {p a : Int} (h : 0 ≤ p * a) :
    0 ≤ quoteFloor p a ∧ quoteFloor p a * Dec.one ≤ p * a ∧ p * a < quoteFloor p a * Dec.one + Dec.one := by
  rw [quoteFloor_eq h, one_eq]; omega

theorem quoteCeil_spec {p a : Int} (h : 0 ≤ p * a) :
    0 ≤ quoteCeil p a ∧ p * a ≤ quoteCeil p a * Dec.one ∧ quoteCeil p a * Dec.one < p * a + Dec.one := by
  unfold quoteCeil Dec.truncateInt Dec.ceil Dec.mulInt
  simp only [Int.tdiv_eq_ediv_of_nonneg h, Int.tmod_eq_emod_of_nonneg h]
  generalize p * a = x at *
  rw [one_eq]
  split
  · rw [Int.mul_tdiv_cancel _ (by decide)]; omega
  · rw [Int.mul_tdiv_cancel _ (by decide)]; omega

theorem quoteFloor_le_ceil {p a : Int} (h : 0 ≤ p * a) : quoteFloor p a ≤ quoteCeil p a := by
  have h1 := quoteFloor_spec h; have h2 := quoteCeil_spec h
  rw [one_eq] at *; omega

theorem quoteCeil_le {p a r : Int} (h : 0 ≤ p * a) (hr : p * a ≤ r * Dec.one) : quoteCeil p a ≤ r := by
  have h2 := quoteCeil_spec h
  rw [one_eq] at *; omega

theorem quoteFloor_mono {p a b : Int} (hp : 0 ≤ p) (ha : 0 ≤ a) (hab : a ≤ b) : quoteFloor p a ≤ quoteFloor p b := by
  have h0 : 0 ≤ p * a := by positivity
  have h1 : p * a ≤ p * b := mul_le_mul_of_nonneg_left hab hp
  have := quoteFloor_spec h0; have := quoteFloor_spec (le_trans h0 h1)
  rw [one_eq] at *; omega

/-- Affordable amount of a buy order. -/
theorem quoTrunc_eq {r price : Int} (hr : 0 ≤ r) (hp : 0 < price) :
    Dec.truncateInt (Dec.quoTruncate (Dec.ofInt r) price) = r * Dec.one / price := by
  unfold Dec.truncateInt Dec.quoTruncate Dec.ofInt
  have h1 : 0 ≤ r * Dec.one * Dec.one := by have := one_pos; positivity
  rw [Int.tdiv_eq_ediv_of_nonneg h1]
  have h2 : 0 ≤ r * Dec.one * Dec.one / price := Int.ediv_nonneg h1 (le_of_lt hp)
  rw [Int.tdiv_eq_ediv_of_nonneg h2, Int.ediv_ediv_of_nonneg (le_of_lt hp)]
  rw [Int.mul_ediv_mul_of_pos_left _ _ one_pos]

/-- Bookkeeping facts an order keeps throughout matching. -/
structure OrderOk (o : Order) : Prop where
  price_pos : 0 < o.price
  open_nonneg : 0 ≤ o.openAmt
  open_le : o.openAmt ≤ o.amount
  paid_nonneg : 0 ≤ o.paid
  paid_le : o.paid ≤ o.offer
  sell_open : o.dir = .sell → o.openAmt ≤ o.offer - o.paid
  received_nonneg : 0 ≤ o.received

theorem matchable_buy {o : Order} (h : OrderOk o) (hd : o.dir = .buy) {price : Int} (hp : 0 < price) :
    matchableAmount o price =
      if quoteFloor price (min o.openAmt ((o.offer - o.paid) * Dec.one / price)) = 0 then 0
      else min o.openAmt ((o.offer - o.paid) * Dec.one / price) := by
  unfold matchableAmount
  rw [hd]
  simp only
  rw [quoTrunc_eq (by have := h.paid_le; omega) hp]

theorem matchable_sell {o : Order} (hd : o.dir = .sell) (price : Int) :
    matchableAmount o price = if quoteFloor price o.openAmt = 0 then 0 else o.openAmt := by
  unfold matchableAmount; rw [hd]

theorem matchable_nonneg {o : Order} (h : OrderOk o) {price : Int} (hp : 0 < price) : 0 ≤ matchableAmount o price := by
  cases hd : o.dir with
  | buy =>
    rw [matchable_buy h hd hp]
    have : 0 ≤ (o.offer - o.paid) * Dec.one / price :=
      Int.ediv_nonneg (mul_nonneg (by have := h.paid_le; omega) (le_of_lt one_pos)) (le_of_lt hp)
    have := h.open_nonneg
    split <;> omega
  | sell =>
    rw [matchable_sell hd]
    have := h.open_nonneg
    split <;> omega

theorem matchable_le_open {o : Order} (h : OrderOk o) {price : Int} (hp : 0 < price) :
    matchableAmount o price ≤ o.openAmt := by
  have h0 := h.open_nonneg
  cases hd : o.dir with
  | buy => rw [matchable_buy h hd hp]; split <;> omega
  | sell => rw [matchable_sell hd]; split <;> omega

/-- What a fill of a matchable amount costs is available. -/
theorem matchable_cost {o : Order} (h : OrderOk o) {price : Int} (hp : 0 < price) {a : Int} (ha : 0 ≤ a)
    (ham : a ≤ matchableAmount o price) :
    (match o.dir with | .buy => quoteCeil price a | .sell => a) ≤ o.offer - o.paid := by
  cases hd : o.dir with
  | buy =>
    simp only
    apply quoteCeil_le (by positivity)
    by_cases h0 : a = 0
    · subst h0; simp; exact mul_nonneg (by have := h.paid_le; omega) (le_of_lt one_pos)
    · rw [matchable_buy h hd hp] at ham
      have h1 : a ≤ (o.offer - o.paid) * Dec.one / price := by split at ham <;> omega
      rw [Int.le_ediv_iff_mul_le hp] at h1
      linarith
  | sell =>
    simp only
    have := matchable_le_open h hp
    have := h.sell_open hd
    omega

/-- A positive matchable amount is worth at least one quote unit. -/
theorem matchable_worth {o : Order} (h : OrderOk o) {price : Int} (hp : 0 < price)
    (hm : 0 < matchableAmount o price) : 0 < quoteFloor price (matchableAmount o price) := by
  have h2 := (quoteFloor_spec (p := price) (a := matchableAmount o price) (by positivity)).1
  have key : ∀ m : Int, 0 < (if quoteFloor price m = 0 then 0 else m) →
      quoteFloor price (if quoteFloor price m = 0 then 0 else m) ≠ 0 := by
    intro m h
    by_cases hc : quoteFloor price m = 0
    · rw [if_pos hc] at h; omega
    · rw [if_neg hc]; exact hc
  have hne : quoteFloor price (matchableAmount o price) ≠ 0 := key _ hm
  omega

theorem totalMatchable_eq (h : Heap) (ps : List Nat) (price : Int) :
    totalMatchable h ps price = (ps.map (fun i => matchableAmount (h i) price)).sum := by
  unfold totalMatchable; rw [foldl_add_eq]; simp

theorem totalAmount_eq (h : Heap) (ps : List Nat) :
    totalAmount h ps = (ps.map (fun i => (h i).amount)).sum := by
  unfold totalAmount; rw [foldl_add_eq]; simp

end Verif.Amm

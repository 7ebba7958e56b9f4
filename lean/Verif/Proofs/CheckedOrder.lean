import Verif.Proofs.CheckedRanged
/-! Orders, deposits and withdrawals with the size limits. -/
namespace Verif.Checked
open Verif Verif.Amm Verif.Dec

set_option exponentiation.threshold 400

theorem mulInt_fits {p a : Int} (hp : 0 ≤ p) (ha : 0 ≤ a) (h : p * a < 2 ^ 315) : mulInt p a = some (Dec.mulInt p a) := by
  have := Int.mul_nonneg hp ha
  exact ck_eq (by unfold Dec.mulInt; omega) (by unfold Dec.mulInt; omega)

theorem truncate_ceil {v : Int} (h0 : 0 ≤ v) (h : v < 2 ^ 315) : truncateInt (Dec.ceil v) = some (Dec.truncateInt (Dec.ceil v)) := by
  have hq : (0 : Int) ≤ v.tdiv one := Int.tdiv_nonneg h0 one_pos'.le
  have hq2 : v.tdiv one ≤ 10 ^ 77 - 2 := by
    rw [Int.tdiv_eq_ediv_of_nonneg h0]; unfold one; omega
  unfold truncateInt Dec.truncateInt Dec.ceil
  simp only
  split
  · rw [Int.mul_tdiv_cancel _ (by decide)]; exact ckInt_eq (by omega) (by omega)
  · rw [Int.mul_tdiv_cancel _ (by decide)]; exact ckInt_eq (by omega) (by omega)

theorem offer_eq {dir : Dir} {p a : Int} (hp : 0 ≤ p) (ha : 0 ≤ a) (h : p * a < 2 ^ 315) :
    offerCoinAmount dir p a = some (Amm.offerCoinAmount dir p a) := by
  cases dir
  · unfold offerCoinAmount Amm.offerCoinAmount quoteCeil
    simp only
    rw [mulInt_fits hp ha h, Option.bind_some, truncate_ceil (v := Dec.mulInt p a) (Int.mul_nonneg hp ha) h]
  · rfl

theorem tooSmall_eq {p a : Int} (hp : 0 ≤ p) (ha : 0 ≤ a) (h : p * a < 2 ^ 315) :
    isTooSmallOrderAmount a p = some (Dex.isTooSmallOrderAmount a p) := by
  unfold isTooSmallOrderAmount Dex.isTooSmallOrderAmount
  rw [mulInt_fits hp ha h]
  by_cases c : a < minCoinAmount <;> simp [c]

theorem fill_eq {o : Order} {p a : Int} (hp : 0 ≤ p) (ha : 0 ≤ a) (h : p * a < 2 ^ 315) :
    fillAmounts o.dir a p = some ((filledOrder o a p).paid - o.paid, (filledOrder o a p).received - o.received) := by
  have h0 := Int.mul_nonneg hp ha
  unfold fillAmounts filledOrder
  cases o.dir with
  | buy =>
    simp only
    rw [mulInt_fits hp ha h, Option.bind_some, truncate_ceil (v := Dec.mulInt p a) h0 h]
    unfold quoteCeil Dec.mulInt
    simp
  | sell =>
    simp only
    rw [mulInt_fits hp ha h, Option.bind_some, truncateInt_fits (a := Dec.mulInt p a) (fits_iff.2 ⟨by unfold Dec.mulInt; omega, h⟩)]
    unfold quoteFloor Dec.mulInt
    simp

/-- The sizes of an order at a price. -/
structure Small (o : Order) (price : Int) : Prop where
  open0 : 0 ≤ o.openAmt
  openM : o.openAmt ≤ 10 ^ 40
  rest0 : 0 ≤ o.offer - o.paid
  restM : o.offer - o.paid ≤ 10 ^ 40
  sell : o.dir = .sell → price * o.openAmt < 2 ^ 315

theorem matchable_eq {o : Order} {p : Int} (h : Small o p) (hp : 1 ≤ p) :
    matchableAmount o p = some (Amm.matchableAmount o p) ∧ 0 ≤ Amm.matchableAmount o p ∧ Amm.matchableAmount o p ≤ 10 ^ 40 := by
  have h0 := h.open0
  have h1 := h.openM
  have fin : ∀ m : Int, 0 ≤ m → p * m < 2 ^ 315 →
      ((mulInt p m).bind fun v => (truncateInt v).bind fun w => some (if w = 0 then 0 else m)) =
        some (if quoteFloor p m = 0 then 0 else m) := by
    intro m hm hf
    rw [mulInt_fits (by omega) hm hf, Option.bind_some,
      truncateInt_fits (a := Dec.mulInt p m) (fits_iff.2 ⟨by have := Int.mul_nonneg (show 0 ≤ p by omega) hm; unfold Dec.mulInt; omega, hf⟩)]
    rfl
  unfold matchableAmount Amm.matchableAmount
  simp only [Option.bind_eq_bind]
  cases hd : o.dir with
  | sell =>
    simp only [Option.bind_some]
    rw [fin _ h0 (h.sell hd)]
    refine ⟨rfl, ?_⟩
    split <;> omega
  | buy =>
    simp only
    obtain ⟨r0, r1⟩ := ofInt_abs h.rest0 h.restM
    have hq : |Dec.ofInt (o.offer - o.paid)| * one ≤ 10 ^ 76 * |p| :=
      le_mul_abs (by omega) (by unfold one at *; omega) (by decide)
    have hq' := abs_quoTruncate_le (by omega) hq
    unfold quoTruncate
    rw [if_neg (show p ≠ 0 by omega), ck_abs (le_trans hq' (by decide)), Option.bind_some, truncateInt_eq (le_trans hq' (by decide))]
    simp only [Option.map_some, Option.bind_some]
    have t0 : 0 ≤ Dec.truncateInt (Dec.quoTruncate (Dec.ofInt (o.offer - o.paid)) p) := by
      unfold Dec.truncateInt Dec.quoTruncate
      exact Int.tdiv_nonneg (Int.tdiv_nonneg (Int.mul_nonneg r0 one_pos'.le) (by omega)) one_pos'.le
    have t1 : p * Dec.truncateInt (Dec.quoTruncate (Dec.ofInt (o.offer - o.paid)) p) ≤ 10 ^ 58 := by
      have n0 : 0 ≤ Dec.ofInt (o.offer - o.paid) * one := Int.mul_nonneg r0 one_pos'.le
      unfold Dec.truncateInt Dec.quoTruncate
      rw [Int.tdiv_eq_ediv_of_nonneg n0, Int.tdiv_eq_ediv_of_nonneg (Int.ediv_nonneg n0 (by omega))]
      rw [abs_of_nonneg r0] at r1
      have e1 := Int.ediv_mul_le (Dec.ofInt (o.offer - o.paid) * one) (show p ≠ 0 by omega)
      generalize Dec.ofInt (o.offer - o.paid) * one / p = q at *
      have e2 := Int.ediv_mul_le q (show one ≠ 0 by decide)
      generalize q / one = t at *
      have e3 : (p * t) * one ≤ (10 ^ 58) * one := by
        have : p * (t * one) ≤ p * q := Int.mul_le_mul_of_nonneg_left e2 (by omega)
        unfold one at *
        nlinarith
      exact le_of_mul_le_mul_right e3 one_pos'
    generalize Dec.truncateInt (Dec.quoTruncate (Dec.ofInt (o.offer - o.paid)) p) = t at *
    have m0 : 0 ≤ min o.openAmt t := by omega
    have m1 : p * min o.openAmt t ≤ p * t := Int.mul_le_mul_of_nonneg_left (by omega) (by omega)
    rw [fin _ m0 (by omega)]
    refine ⟨rfl, ?_⟩
    split <;> omega

theorem total_eq {h : Heap} {p : Int} (hp : 1 ≤ p) : ∀ (is : List Nat) (acc : Int), (∀ i ∈ is, Small (h i) p) → 0 ≤ acc →
    acc + is.length * 10 ^ 40 ≤ 10 ^ 77 →
    totalMatchable h is p acc = some (is.foldl (fun a i => a + Amm.matchableAmount (h i) p) acc) ∧
    0 ≤ is.foldl (fun a i => a + Amm.matchableAmount (h i) p) acc ∧
    is.foldl (fun a i => a + Amm.matchableAmount (h i) p) acc ≤ acc + is.length * 10 ^ 40 := by
  intro is
  induction is with
  | nil => intro acc _ h0 _; exact ⟨rfl, by simpa using h0, by simp⟩
  | cons i is ih =>
    intro acc hs h0 hb
    obtain ⟨m1, m2, m3⟩ := matchable_eq (hs i (by simp)) hp
    rw [List.length_cons] at hb
    push_cast at hb
    obtain ⟨a, b, c⟩ := ih (acc + Amm.matchableAmount (h i) p) (fun j hj => hs j (by simp [hj])) (by omega) (by omega)
    unfold totalMatchable
    rw [m1]
    simp only [Option.bind_eq_bind, Option.bind_some]
    rw [ckInt_eq (by omega) (by omega)]
    simp only [Option.bind_some, List.foldl_cons, List.length_cons]
    exact ⟨a, b, by push_cast; omega⟩

/-- The number of orders on the ticks. -/
def count (ts : List Tick) : Int := (ts.flatMap (·.orders)).length

theorem count_cons (t : Tick) (ts : List Tick) : count (t :: ts) = t.orders.length + count ts := by
  unfold count
  rw [List.flatMap_cons, List.length_append]
  push_cast
  rfl

theorem count_nonneg (ts : List Tick) : 0 ≤ count ts := by unfold count; omega

theorem buyOver_eq {h : Heap} {p : Int} (hp : 1 ≤ p) : ∀ (ts : List Tick) (acc : Int), (∀ t ∈ ts, ∀ i ∈ t.orders, Small (h i) p) → 0 ≤ acc →
    acc + count ts * 10 ^ 40 ≤ 10 ^ 76 →
    buyOverAt h p ts acc = some (Amm.buyOverAt h p ts acc) ∧ 0 ≤ (Amm.buyOverAt h p ts acc).1 ∧ 0 ≤ (Amm.buyOverAt h p ts acc).2 ∧
      (Amm.buyOverAt h p ts acc).1 + (Amm.buyOverAt h p ts acc).2 ≤ acc + count ts * 10 ^ 40 := by
  intro ts
  induction ts with
  | nil => intro acc _ h0 _; exact ⟨rfl, h0, le_refl _, by simp [Amm.buyOverAt, count]⟩
  | cons t ts ih =>
    intro acc hs h0 hb
    rw [count_cons] at hb ⊢
    have hc := count_nonneg ts
    obtain ⟨a, b, c⟩ := total_eq hp t.orders 0 (hs t (by simp)) (le_refl _) (by omega)
    unfold buyOverAt Amm.buyOverAt
    by_cases c1 : t.price < p
    · simp only [c1, if_true]
      exact ⟨trivial, h0, le_refl _, by omega⟩
    simp only [c1, if_false]
    rw [a]
    simp only [Option.bind_eq_bind, Option.bind_some]
    change _ ∧ 0 ≤ (if t.price = p then (acc, Amm.totalMatchable h t.orders p) else _).1 ∧ _
    have e : Amm.totalMatchable h t.orders p = t.orders.foldl (fun a i => a + Amm.matchableAmount (h i) p) 0 := rfl
    rw [← e] at b c ⊢
    generalize Amm.totalMatchable h t.orders p = m at *
    by_cases c2 : t.price = p
    · simp only [c2, if_true]
      exact ⟨trivial, h0, b, by omega⟩
    simp only [c2, if_false]
    rw [ckInt_eq (by omega) (by omega)]
    obtain ⟨i1, i2, i3, i4⟩ := ih (acc + m) (fun t ht => hs t (by simp [ht])) (by omega) (by omega)
    exact ⟨i1, i2, i3, by omega⟩

theorem sellUnder_eq {h : Heap} {p : Int} (hp : 1 ≤ p) : ∀ (ts : List Tick) (acc : Int), (∀ t ∈ ts, ∀ i ∈ t.orders, Small (h i) p) → 0 ≤ acc →
    acc + count ts * 10 ^ 40 ≤ 10 ^ 76 →
    sellUnderAt h p ts acc = some (Amm.sellUnderAt h p ts acc) ∧ 0 ≤ (Amm.sellUnderAt h p ts acc).1 ∧ 0 ≤ (Amm.sellUnderAt h p ts acc).2 ∧
      (Amm.sellUnderAt h p ts acc).1 + (Amm.sellUnderAt h p ts acc).2 ≤ acc + count ts * 10 ^ 40 := by
  intro ts
  induction ts with
  | nil => intro acc _ h0 _; exact ⟨rfl, h0, le_refl _, by simp [Amm.sellUnderAt, count]⟩
  | cons t ts ih =>
    intro acc hs h0 hb
    rw [count_cons] at hb ⊢
    have hc := count_nonneg ts
    obtain ⟨a, b, c⟩ := total_eq hp t.orders 0 (hs t (by simp)) (le_refl _) (by omega)
    unfold sellUnderAt Amm.sellUnderAt
    by_cases c1 : t.price > p
    · simp only [c1, if_true]
      exact ⟨trivial, h0, le_refl _, by omega⟩
    simp only [c1, if_false]
    rw [a]
    simp only [Option.bind_eq_bind, Option.bind_some]
    have e : Amm.totalMatchable h t.orders p = t.orders.foldl (fun a i => a + Amm.matchableAmount (h i) p) 0 := rfl
    rw [← e] at b c ⊢
    generalize Amm.totalMatchable h t.orders p = m at *
    by_cases c2 : t.price = p
    · simp only [c2, if_true]
      exact ⟨trivial, h0, b, by omega⟩
    simp only [c2, if_false]
    rw [ckInt_eq (by omega) (by omega)]
    obtain ⟨i1, i2, i3, i4⟩ := ih (acc + m) (fun t ht => hs t (by simp [ht])) (by omega) (by omega)
    exact ⟨i1, i2, i3, by omega⟩

theorem direction_eq {h : Heap} {ob : OrderBook} {p : Int} (hp : 1 ≤ p)
    (hs : ∀ t ∈ ob.buys ++ ob.sells, ∀ i ∈ t.orders, Small (h i) p) (hb : count ob.buys ≤ 10 ^ 36) (hsl : count ob.sells ≤ 10 ^ 36) :
    priceDirection h ob p = some (Amm.priceDirection h ob p) := by
  obtain ⟨a1, a2, a3, a4⟩ := buyOver_eq hp ob.buys 0 (fun t ht => hs t (by simp [ht])) (le_refl _) (by omega)
  obtain ⟨b1, b2, b3, b4⟩ := sellUnder_eq hp ob.sells 0 (fun t ht => hs t (by simp [ht])) (le_refl _) (by omega)
  unfold priceDirection Amm.priceDirection
  rw [a1, b1]
  simp only [Option.bind_eq_bind, Option.bind_some]
  rw [ckInt_eq (by omega) (by omega), ckInt_eq (by omega) (by omega)]
  simp only [Option.bind_some]
  split
  · rfl
  · split <;> rfl

end Verif.Checked

import Verif.Proofs.MatchExtra
/-! Depth sums over a book (for C26, C27). -/
namespace Verif.Amm
open Verif Verif.Spec

theorem flat_filter {h : Heap} (q : Int → Bool) : ∀ {ts : List Tick}, (∀ t ∈ ts, ∀ p ∈ t.orders, (h p).price = t.price) →
    (ts.filter (fun t => q t.price)).flatMap (·.orders) = (ts.flatMap (·.orders)).filter (fun p => q (h p).price) := by
  intro ts
  induction ts with
  | nil => simp
  | cons t ts ih =>
    intro hp
    have i := ih (fun t' ht => hp t' (List.mem_cons_of_mem _ ht))
    rw [List.flatMap_cons, List.filter_append, ← i, List.filter_cons]
    by_cases hq : q t.price = true
    · rw [if_pos hq, List.flatMap_cons]
      congr 1
      symm; rw [List.filter_eq_self]
      intro p hp'; rw [hp t (by simp) p hp']; exact hq
    · rw [if_neg hq]
      have : t.orders.filter (fun p => q (h p).price) = [] := by
        rw [List.filter_eq_nil_iff]
        intro p hp'; rw [hp t (by simp) p hp']; exact hq
      rw [this]; simp

theorem ticks_filter_total {h : Heap} (q : Int → Bool) {ts : List Tick} (price : Int)
    (hp : ∀ t ∈ ts, ∀ p ∈ t.orders, (h p).price = t.price) :
    ticksTotal h (ts.filter (fun t => q t.price)) price = depth h (ts.flatMap (·.orders)) price (fun o => q o.price) := by
  rw [ticksTotal_eq, flat_filter q hp, totalMatchable_eq]; rfl

/-- Depth of one side of a book, over all its orders. -/
theorem depth_book {h : Heap} {ob : OrderBook} (hb : SideOk h .buy ob.buys) (hs : SideOk h .sell ob.sells) (d : Dir)
    (price : Int) (q : Int → Bool) :
    depth h ob.orders price (fun o => o.dir == d && q o.price) =
    depth h ((match d with | .buy => ob.buys | .sell => ob.sells : List Tick).flatMap (·.orders)) price (fun o => q o.price) := by
  unfold depth OrderBook.orders
  rw [List.flatMap_append, List.filter_append, List.map_append, List.sum_append]
  cases d with
  | buy =>
    have e : (ob.sells.flatMap (·.orders)).filter (fun p => (h p).dir == .buy && q (h p).price) = [] := by
      rw [List.filter_eq_nil_iff]
      intro p hp; simp [hs.dirs p hp]
    rw [e]
    have e2 : (ob.buys.flatMap (·.orders)).filter (fun p => (h p).dir == .buy && q (h p).price) =
        (ob.buys.flatMap (·.orders)).filter (fun p => q (h p).price) := by
      apply List.filter_congr; intro p hp; simp [hb.dirs p hp]
    rw [e2]; simp
  | sell =>
    have e : (ob.buys.flatMap (·.orders)).filter (fun p => (h p).dir == .sell && q (h p).price) = [] := by
      rw [List.filter_eq_nil_iff]
      intro p hp; simp [hb.dirs p hp]
    rw [e]
    have e2 : (ob.sells.flatMap (·.orders)).filter (fun p => (h p).dir == .sell && q (h p).price) =
        (ob.sells.flatMap (·.orders)).filter (fun p => q (h p).price) := by
      apply List.filter_congr; intro p hp; simp [hs.dirs p hp]
    rw [e2]; simp

theorem buildSide_filter {inc : Bool} : ∀ {ts : List Tick} (price : Int),
    ts.Pairwise (fun a b => priceBefore inc a.price b.price) →
    buildSide inc ts price = ts.filter (fun t => if inc then decide (t.price ≤ price) else decide (price ≤ t.price)) := by
  intro ts price
  unfold buildSide
  induction ts with
  | nil => simp
  | cons t ts ih =>
    intro hs
    rw [List.pairwise_cons] at hs
    have i := ih hs.2
    rw [List.takeWhile_cons, List.filter_cons]
    cases inc with
    | true =>
      simp only [priceBefore, if_true] at hs
      by_cases hc : t.price ≤ price
      · simp only [Bool.true_and, Bool.not_true, Bool.false_and, Bool.or_false, if_true] at i ⊢
        rw [if_pos (by simpa using hc), if_pos (by simpa using hc), i]
      · simp only [Bool.true_and, Bool.not_true, Bool.false_and, Bool.or_false, if_true] at i ⊢
        rw [if_neg (by simpa using hc), if_neg (by simpa using hc)]
        symm; rw [List.filter_eq_nil_iff]
        intro a ha; have := hs.1 a ha; simp; omega
    | false =>
      simp only [priceBefore, Bool.false_eq_true, if_false] at hs
      by_cases hc : price ≤ t.price
      · simp only [Bool.false_and, Bool.not_false, Bool.true_and, Bool.false_or, Bool.false_eq_true, if_false] at i ⊢
        rw [if_pos (by simpa using hc), if_pos (by simpa using hc), i]
      · simp only [Bool.false_and, Bool.not_false, Bool.true_and, Bool.false_or, Bool.false_eq_true, if_false] at i ⊢
        rw [if_neg (by simp; omega), if_neg (by simpa using hc)]
        symm; rw [List.filter_eq_nil_iff]
        intro a ha; have := hs.1 a ha; simp; omega

theorem buyOverAt_eq {h : Heap} {last : Int} : ∀ {ts : List Tick} (acc : Int),
    ts.Pairwise (fun a b => priceBefore false a.price b.price) →
    buyOverAt h last ts acc = (acc + ticksTotal h (ts.filter (fun t => decide (last < t.price))) last,
      ticksTotal h (ts.filter (fun t => decide (t.price = last))) last) := by
  intro ts
  induction ts with
  | nil => intro acc _; simp [buyOverAt, ticksTotal]
  | cons t ts ih =>
    intro acc hs
    rw [List.pairwise_cons] at hs
    simp only [priceBefore, Bool.false_eq_true, if_false] at hs
    unfold buyOverAt
    rw [List.filter_cons, List.filter_cons]
    have hnil : t.price ≤ last → ts.filter (fun t => decide (last < t.price)) = [] := by
      intro hc; rw [List.filter_eq_nil_iff]; intro a ha; have := hs.1 a ha; simp; omega
    have hnil2 : t.price ≤ last → ts.filter (fun t => decide (t.price = last)) = [] := by
      intro hc; rw [List.filter_eq_nil_iff]; intro a ha; have := hs.1 a ha; simp; omega
    split
    · rename_i hc
      rw [if_neg (by simp; omega), if_neg (by simp; omega), hnil (by omega), hnil2 (by omega)]
      simp [ticksTotal]
    · simp only
      split
      · rename_i hc
        rw [if_neg (by simp; omega), if_pos (by simpa using hc), hnil (by omega), hnil2 (by omega)]
        simp [ticksTotal]
      · rename_i h1 h2
        rw [if_pos (by simp; omega), if_neg (by simpa using h2), ih _ hs.2]
        have := ticksTotal_append h [t] (ts.filter (fun t => decide (last < t.price))) last
        simp only [List.singleton_append] at this
        rw [this]
        have e : ticksTotal h [t] last = totalMatchable h t.orders last := by simp [ticksTotal]
        rw [e, add_assoc]

theorem sellUnderAt_eq {h : Heap} {last : Int} : ∀ {ts : List Tick} (acc : Int),
    ts.Pairwise (fun a b => priceBefore true a.price b.price) →
    sellUnderAt h last ts acc = (acc + ticksTotal h (ts.filter (fun t => decide (t.price < last))) last,
      ticksTotal h (ts.filter (fun t => decide (t.price = last))) last) := by
  intro ts
  induction ts with
  | nil => intro acc _; simp [sellUnderAt, ticksTotal]
  | cons t ts ih =>
    intro acc hs
    rw [List.pairwise_cons] at hs
    simp only [priceBefore, if_true] at hs
    unfold sellUnderAt
    rw [List.filter_cons, List.filter_cons]
    have hnil : last ≤ t.price → ts.filter (fun t => decide (t.price < last)) = [] := by
      intro hc; rw [List.filter_eq_nil_iff]; intro a ha; have := hs.1 a ha; simp; omega
    have hnil2 : last ≤ t.price → ts.filter (fun t => decide (t.price = last)) = [] := by
      intro hc; rw [List.filter_eq_nil_iff]; intro a ha; have := hs.1 a ha; simp; omega
    split
    · rename_i hc
      rw [if_neg (by simp; omega), if_neg (by simp; omega), hnil (by omega), hnil2 (by omega)]
      simp [ticksTotal]
    · simp only
      split
      · rename_i hc
        rw [if_neg (by simp; omega), if_pos (by simpa using hc), hnil (by omega), hnil2 (by omega)]
        simp [ticksTotal]
      · rename_i h1 h2
        rw [if_pos (by simp; omega), if_neg (by simpa using h2), ih _ hs.2]
        have := ticksTotal_append h [t] (ts.filter (fun t => decide (t.price < last))) last
        simp only [List.singleton_append] at this
        rw [this]
        have e : ticksTotal h [t] last = totalMatchable h t.orders last := by simp [ticksTotal]
        rw [e, add_assoc]

theorem depth_nonneg {h : Heap} {ps : List Nat} {price : Int} {q : Order → Bool} (hp : 0 < price)
    (hl : ∀ p ∈ ps, Live (h p)) : 0 ≤ depth h ps price q := by
  apply sum_map_nonneg
  intro p hpm
  exact matchable_nonneg ((live_iff _).1 (hl p (List.mem_of_mem_filter hpm))) hp

theorem book_orders_mem {h : Heap} {ps : List Nat} {p : Nat} (hp : p ∈ (newOrderBook h ps).orders) : p ∈ ps := by
  unfold OrderBook.orders at hp
  rw [List.flatMap_append] at hp
  rcases List.mem_append.1 hp with h1 | h1
  · exact (eligible_mem ((bookOk_new h ps).buys.perm.mem_iff.1 h1)).1
  · exact (eligible_mem ((bookOk_new h ps).sells.perm.mem_iff.1 h1)).1

end Verif.Amm

import Verif.Proofs.MatchDepth
/-!
# Properties C16-C19: orders, the order book, groups and priority
-/
namespace Verif.Props
open Verif Verif.Amm Verif.Spec

/-- **C16** For a live order and a positive price, the matchable amount is between 0 and the open amount; a buy can
afford it (rounded up) from its unpaid offer coin; and if it is positive it is worth at least one quote coin. -/
theorem C16_matchable_affordable (o : Order) (price : Int) (hp : 0 < price) (ho : Live o) :
    let m := matchableAmount o price
    0 ≤ m ∧ m ≤ o.openAmt ∧ cost o.dir price m ≤ o.offer - o.paid ∧ (0 < m → 1 ≤ quoteDown price m) := by
  have hk := (live_iff o).1 ho
  have h0 := matchable_nonneg hk hp
  have hpa : 0 ≤ price * matchableAmount o price := mul_nonneg (le_of_lt hp) h0
  refine ⟨h0, matchable_le_open hk hp, ?_, ?_⟩
  · have := matchable_cost hk hp h0 (le_refl _)
    unfold cost
    rw [← quoteUp_eq hpa]
    cases hd : o.dir <;> simp only [hd] at this ⊢ <;> exact this
  · intro hm
    have := matchable_worth hk hp hm
    rw [quoteDown_eq hpa] at this
    omega

/-- **C16** The amount is the largest one possible: a buy whose matchable amount is positive and below its open amount
could not afford one more base coin. -/
theorem C16_matchable_maximal (o : Order) (price : Int) (hp : 0 < price) (ho : Live o) (hd : o.dir = .buy)
    (hpos : 0 < matchableAmount o price) (hlt : matchableAmount o price < o.openAmt) :
    o.offer - o.paid < cost .buy price (matchableAmount o price + 1) := by
  have hk := (live_iff o).1 ho
  have h1 := matchable_buy hk hd hp
  split at h1
  · omega
  · have hm : matchableAmount o price = (o.offer - o.paid) * Dec.one / price := by omega
    have h2 : 0 ≤ price * (matchableAmount o price + 1) := mul_nonneg (le_of_lt hp) (by omega)
    unfold cost
    simp only
    rw [← quoteUp_eq h2]
    obtain ⟨_, c2, _⟩ := quoteCeil_spec h2
    have h3 : (o.offer - o.paid) * Dec.one < price * (matchableAmount o price + 1) := by
      rw [hm]
      have := Int.lt_ediv_add_one_mul_self ((o.offer - o.paid) * Dec.one) hp
      rw [mul_comm price]; exact this
    have h4 : (o.offer - o.paid) * Dec.one < quoteCeil price (matchableAmount o price + 1) * Dec.one := by omega
    exact lt_of_mul_lt_mul_right h4 (le_of_lt one_pos)

/-- **C16** Exactly: let `M` be the greatest amount up to the open amount that the order can still pay for at this price
(for a sell, the open amount itself); the matchable amount is `M` if `M` is worth at least one quote coin, and 0
otherwise. -/
theorem C16_matchable_exact (o : Order) (price : Int) (hp : 0 < price) (ho : Live o) :
    ∃ M, 0 ≤ M ∧ M ≤ o.openAmt ∧ cost o.dir price M ≤ o.offer - o.paid ∧
      (∀ c, M < c → c ≤ o.openAmt → o.offer - o.paid < cost o.dir price c) ∧
      matchableAmount o price = if 1 ≤ quoteDown price M then M else 0 := by
  have hk := (live_iff o).1 ho
  have hop := ho.open_nonneg
  have hR : 0 ≤ o.offer - o.paid := by have := ho.paid_le; omega
  have flip : ∀ M, 0 ≤ M → (if quoteFloor price M = 0 then 0 else M) = if 1 ≤ quoteDown price M then M else 0 := by
    intro M hM
    have hpa : 0 ≤ price * M := mul_nonneg hp.le hM
    have h0 := (quoteFloor_spec hpa).1
    rw [← quoteDown_eq hpa]
    by_cases h : quoteFloor price M = 0
    · rw [if_pos h, if_neg (by omega)]
    · rw [if_neg h, if_pos (by omega)]
  cases hd : o.dir with
  | sell =>
    refine ⟨o.openAmt, hop, le_refl _, ho.sell_open hd, fun c h1 h2 => by omega, ?_⟩
    rw [matchable_sell hd, flip _ hop]
  | buy =>
    have hq : 0 ≤ (o.offer - o.paid) * Dec.one / price := Int.ediv_nonneg (mul_nonneg hR one_pos.le) hp.le
    have hM : 0 ≤ min o.openAmt ((o.offer - o.paid) * Dec.one / price) := le_min hop hq
    refine ⟨min o.openAmt ((o.offer - o.paid) * Dec.one / price), hM, min_le_left _ _, ?_, fun c h1 h2 => ?_, ?_⟩
    · have hpa : 0 ≤ price * min o.openAmt ((o.offer - o.paid) * Dec.one / price) := mul_nonneg hp.le hM
      show quoteUp _ _ ≤ _
      rw [← quoteUp_eq hpa]
      refine quoteCeil_le hpa ?_
      calc price * min o.openAmt ((o.offer - o.paid) * Dec.one / price)
          ≤ price * ((o.offer - o.paid) * Dec.one / price) := mul_le_mul_of_nonneg_left (min_le_right _ _) hp.le
        _ ≤ (o.offer - o.paid) * Dec.one := by rw [mul_comm]; exact Int.ediv_mul_le _ (ne_of_gt hp)
    · have hc : (o.offer - o.paid) * Dec.one / price < c := by
        rcases min_lt_iff.1 h1 with h | h
        · omega
        · exact h
      have hpa : 0 ≤ price * c := mul_nonneg hp.le (by omega)
      show _ < quoteUp _ _
      rw [← quoteUp_eq hpa]
      have h3 : (o.offer - o.paid) * Dec.one < c * price := (Int.ediv_lt_iff_lt_mul hp).1 hc
      have h4 := (quoteCeil_spec hpa).2.1
      rw [mul_comm] at h4
      exact lt_of_mul_lt_mul_right (lt_of_lt_of_le h3 h4) one_pos.le
    · rw [matchable_buy hk hd hp, flip _ hM]

/-- Non-vacuity: a partly filled buy at 1.5 with 100 quote coins left can afford 66 base coins. -/
example : let o : Order := { dir := .buy, price := 1500000000000000000, amount := 1000, offer := 1500, openAmt := 900,
                             paid := 1400, received := 100, kind := .user 7 3 }
    Live o ∧ matchableAmount o 1500000000000000000 = 66 := by
  refine ⟨⟨?_, ?_, ?_, ?_, ?_, ?_, ?_⟩, ?_⟩ <;> first | decide | decide +kernel

/-- Is order `o` one the book takes on side `d`? -/
def OnSide (d : Dir) (o : Order) : Bool := o.dir == d && decide (0 < matchableAmount o o.price)

/-- **C17** For every sequence of orders, the book's buy ticks have strictly decreasing prices and its sell ticks strictly
increasing prices; every tick is non-empty and holds exactly the matchable orders of its side and price, in the order in
which they were added (so no order occurs twice if it was added once); every matchable order is in a tick of its side. -/
theorem C17_book_sorted_and_complete (h : Heap) (ps : List Nat) :
    let ob := newOrderBook h ps
    ob.buys.Pairwise (fun a b => b.price < a.price) ∧ ob.sells.Pairwise (fun a b => a.price < b.price) ∧
    (∀ t ∈ ob.buys, t.orders ≠ [] ∧ t.orders = ps.filter (fun p => OnSide .buy (h p) && (h p).price == t.price)) ∧
    (∀ t ∈ ob.sells, t.orders ≠ [] ∧ t.orders = ps.filter (fun p => OnSide .sell (h p) && (h p).price == t.price)) ∧
    (∀ p ∈ ps, OnSide .buy (h p) = true → ∃ t ∈ ob.buys, p ∈ t.orders) ∧
    (∀ p ∈ ps, OnSide .sell (h p) = true → ∃ t ∈ ob.sells, p ∈ t.orders) := by
  have hk := bookOk_new h ps
  have hel : ∀ d, eligible h d ps = ps.filter (fun p => OnSide d (h p)) := by
    intro d; unfold eligible OnSide; rfl
  have hcont : ∀ d inc ts, TicksOk inc h (eligible h d ps) ts → ∀ t ∈ ts, t.orders ≠ [] ∧
      t.orders = ps.filter (fun p => OnSide d (h p) && (h p).price == t.price) := by
    intro d inc ts hts t ht
    refine ⟨hts.nonempty t ht, ?_⟩
    rw [hts.content t ht, hel, List.filter_filter]
    apply List.filter_congr; intro p _; exact Bool.and_comm _ _
  have hcomp : ∀ d inc ts, TicksOk inc h (eligible h d ps) ts → ∀ p ∈ ps, OnSide d (h p) = true → ∃ t ∈ ts, p ∈ t.orders := by
    intro d inc ts hts p hp ho
    have hpe : p ∈ eligible h d ps := by rw [hel]; exact List.mem_filter.2 ⟨hp, ho⟩
    obtain ⟨t, ht, hpt⟩ := hts.complete p hpe
    refine ⟨t, ht, ?_⟩
    rw [hts.content t ht]
    exact List.mem_filter.2 ⟨hpe, by simp [hpt]⟩
  refine ⟨?_, ?_, hcont _ _ _ hk.buys, hcont _ _ _ hk.sells, hcomp _ _ _ hk.buys, hcomp _ _ _ hk.sells⟩
  · exact hk.buys.sorted.imp (fun h1 => by simpa [priceBefore] using h1)
  · exact hk.sells.sorted.imp (fun h1 => by simpa [priceBefore] using h1)

theorem ordersAt_spec {inc : Bool} {h : Heap} {qs : List Nat} {ts : List Tick} (hk : TicksOk inc h qs ts) (price : Int) :
    ordersAt inc ts price = qs.filter (fun p => (h p).price == price) := by
  obtain ⟨k, ex, he, hkl, h1, h2, h3⟩ := findPrice_spec hk.sorted price
  unfold ordersAt
  rw [he]
  cases ex with
  | true =>
    obtain ⟨t, ht, htp⟩ := h2 rfl
    simp only [ht, Option.map_some, Option.getD_some]
    rw [hk.content t (List.mem_of_getElem? ht), htp]
  | false =>
    simp only
    symm; rw [List.filter_eq_nil_iff]
    intro p hp hc
    obtain ⟨t, ht, htp⟩ := hk.complete p hp
    have hc' : (h p).price = price := by simpa using hc
    have hmem : t ∈ ts.take k ++ ts.drop k := by rw [List.take_append_drop]; exact ht
    rcases List.mem_append.1 hmem with hm | hm
    · have := h1 t hm; unfold priceBefore at this; split at this <;> omega
    · have := h3 rfl t hm; unfold priceBefore at this; split at this <;> omega

/-- **C17** `BuyOrdersAt`/`SellOrdersAt` return exactly the matchable orders added at that price, in arrival order. -/
theorem C17_orders_at (h : Heap) (ps : List Nat) (price : Int) :
    (newOrderBook h ps).buyOrdersAt price = ps.filter (fun p => OnSide .buy (h p) && (h p).price == price) ∧
    (newOrderBook h ps).sellOrdersAt price = ps.filter (fun p => OnSide .sell (h p) && (h p).price == price) := by
  have hk := bookOk_new h ps
  have hel : ∀ d, eligible h d ps = ps.filter (fun p => OnSide d (h p)) := by
    intro d; unfold eligible OnSide; rfl
  constructor
  · unfold OrderBook.buyOrdersAt
    rw [ordersAt_spec hk.buys, hel, List.filter_filter]
    apply List.filter_congr; intro p _; exact Bool.and_comm _ _
  · unfold OrderBook.sellOrdersAt
    rw [ordersAt_spec hk.sells, hel, List.filter_filter]
    apply List.filter_congr; intro p _; exact Bool.and_comm _ _

/-- **C17** The book as a whole holds each matchable order exactly as often as it was added, and nothing else. -/
theorem C17_orders_multiset (h : Heap) (ps : List Nat) :
    (newOrderBook h ps).orders.Perm (ps.filter (fun p => decide (0 < matchableAmount (h p) (h p).price))) := by
  have hk := bookOk_new h ps
  unfold OrderBook.orders
  rw [List.flatMap_append]
  refine (List.Perm.append hk.buys.perm hk.sells.perm).trans ?_
  have hel : ∀ d, eligible h d ps = (ps.filter (fun p => decide (0 < matchableAmount (h p) (h p).price))).filter
      (fun p => (h p).dir == d) := by
    intro d; unfold eligible; rw [List.filter_filter]; rfl
  rw [hel, hel]
  have hneg : ∀ l : List Nat, l.filter (fun p => (h p).dir == .sell) = l.filter (fun p => !((h p).dir == .buy)) := by
    intro l; apply List.filter_congr; intro p _; cases (h p).dir <;> rfl
  rw [hneg]
  exact List.filter_append_perm _ _

theorem head_first {α : Type} {R : α → α → Prop} {l : List α} (hl : l.Pairwise R) {a : α} (h : l.head? = some a) :
    a ∈ l ∧ ∀ b ∈ l, b = a ∨ R a b := by
  cases l with
  | nil => simp at h
  | cons c t =>
    simp only [List.head?_cons, Option.some.injEq] at h
    subst h
    refine ⟨by simp, fun b hb => ?_⟩
    rcases List.mem_cons.1 hb with rfl | hb
    · exact .inl rfl
    · exact .inr ((List.pairwise_cons.1 hl).1 b hb)

theorem last_last {α : Type} {R : α → α → Prop} {l : List α} (hl : l.Pairwise R) {a : α} (h : l.getLast? = some a) :
    a ∈ l ∧ ∀ b ∈ l, b = a ∨ R b a := by
  have h' : l.reverse.head? = some a := by rw [List.head?_reverse]; exact h
  have hl' : l.reverse.Pairwise (fun x y => R y x) := List.pairwise_reverse.2 hl
  obtain ⟨h1, h2⟩ := head_first hl' h'
  exact ⟨by simpa using h1, fun b hb => h2 b (by simpa using hb)⟩

/-- **C17** `HighestPrice` and `LowestPrice` are the extreme prices over all matchable orders of both sides, and are
missing exactly when no order is matchable. -/
theorem C17_highest_lowest_price (h : Heap) (ps : List Nat) :
    let live := fun p => p ∈ ps ∧ 0 < matchableAmount (h p) (h p).price
    ((newOrderBook h ps).highestPrice = none ↔ ¬ ∃ p, live p) ∧
    ((newOrderBook h ps).lowestPrice = none ↔ ¬ ∃ p, live p) ∧
    (∀ x, (newOrderBook h ps).highestPrice = some x → (∃ p, live p ∧ (h p).price = x) ∧ ∀ p, live p → (h p).price ≤ x) ∧
    (∀ x, (newOrderBook h ps).lowestPrice = some x → (∃ p, live p ∧ (h p).price = x) ∧ ∀ p, live p → x ≤ (h p).price) := by
  intro live
  obtain ⟨hb, hs, cb, cs, eb, es⟩ := C17_book_sorted_and_complete h ps
  generalize newOrderBook h ps = ob at *
  -- ticks and live orders
  have tickOf : ∀ p, live p → (∃ t ∈ ob.buys, t.price = (h p).price) ∨ (∃ t ∈ ob.sells, t.price = (h p).price) := by
    intro p ⟨hp, hm⟩
    cases hd : (h p).dir with
    | buy =>
      obtain ⟨t, ht, hpt⟩ := eb p hp (by simp [OnSide, hd, hm])
      rw [(cb t ht).2] at hpt
      simp at hpt
      exact .inl ⟨t, ht, hpt.2.2.symm⟩
    | sell =>
      obtain ⟨t, ht, hpt⟩ := es p hp (by simp [OnSide, hd, hm])
      rw [(cs t ht).2] at hpt
      simp at hpt
      exact .inr ⟨t, ht, hpt.2.2.symm⟩
  have orderB : ∀ t ∈ ob.buys, ∃ p, live p ∧ (h p).price = t.price := by
    intro t ht
    obtain ⟨n, e⟩ := cb t ht
    obtain ⟨p, hp⟩ := List.exists_mem_of_ne_nil _ n
    rw [e] at hp
    simp [OnSide] at hp
    exact ⟨p, ⟨hp.1, hp.2.1.2⟩, hp.2.2⟩
  have orderS : ∀ t ∈ ob.sells, ∃ p, live p ∧ (h p).price = t.price := by
    intro t ht
    obtain ⟨n, e⟩ := cs t ht
    obtain ⟨p, hp⟩ := List.exists_mem_of_ne_nil _ n
    rw [e] at hp
    simp [OnSide] at hp
    exact ⟨p, ⟨hp.1, hp.2.1.2⟩, hp.2.2⟩
  have nb : ob.buys = [] ∧ ob.sells = [] ↔ ¬ ∃ p, live p := by
    constructor
    · rintro ⟨e1, e2⟩ ⟨p, hp⟩
      rcases tickOf p hp with ⟨t, ht, _⟩ | ⟨t, ht, _⟩
      · rw [e1] at ht; simp at ht
      · rw [e2] at ht; simp at ht
    · intro hn
      constructor
      · by_contra hc
        obtain ⟨t, ht⟩ := List.exists_mem_of_ne_nil _ hc
        obtain ⟨p, hp, _⟩ := orderB t ht
        exact hn ⟨p, hp⟩
      · by_contra hc
        obtain ⟨t, ht⟩ := List.exists_mem_of_ne_nil _ hc
        obtain ⟨p, hp, _⟩ := orderS t ht
        exact hn ⟨p, hp⟩
  -- the four extreme ticks
  have b1 : ∀ a, ob.buys.head? = some a → a ∈ ob.buys ∧ ∀ t ∈ ob.buys, t.price ≤ a.price := fun a e =>
    ⟨(head_first hb e).1, fun t ht => by rcases (head_first hb e).2 t ht with rfl | h <;> omega⟩
  have b2 : ∀ a, ob.buys.getLast? = some a → a ∈ ob.buys ∧ ∀ t ∈ ob.buys, a.price ≤ t.price := fun a e =>
    ⟨(last_last hb e).1, fun t ht => by rcases (last_last hb e).2 t ht with rfl | h <;> omega⟩
  have s1 : ∀ a, ob.sells.head? = some a → a ∈ ob.sells ∧ ∀ t ∈ ob.sells, a.price ≤ t.price := fun a e =>
    ⟨(head_first hs e).1, fun t ht => by rcases (head_first hs e).2 t ht with rfl | h <;> omega⟩
  have s2 : ∀ a, ob.sells.getLast? = some a → a ∈ ob.sells ∧ ∀ t ∈ ob.sells, t.price ≤ a.price := fun a e =>
    ⟨(last_last hs e).1, fun t ht => by rcases (last_last hs e).2 t ht with rfl | h <;> omega⟩
  have nolist : ∀ {l : List Tick}, l.head? = none → ∀ t, t ∉ l := by
    intro l e t ht; rw [List.head?_eq_none_iff] at e; rw [e] at ht; simp at ht
  have nolist' : ∀ {l : List Tick}, l.getLast? = none → ∀ t, t ∉ l := by
    intro l e t ht; rw [List.getLast?_eq_none_iff] at e; rw [e] at ht; simp at ht
  unfold OrderBook.highestPrice OrderBook.lowestPrice ticksHighest ticksLowest
  simp only [Bool.false_eq_true, if_false, if_true]
  refine ⟨?_, ?_, ?_, ?_⟩
  · rw [← nb]
    clear * - ob
    rcases ob with ⟨b, s⟩
    cases h1 : b.head? <;> cases h2 : s.getLast? <;> simp_all [List.head?_eq_none_iff, List.getLast?_eq_none_iff]
    all_goals (intros; intro e; first | (rw [e] at h1; simp at h1; done) | (rw [e] at h2; simp at h2; done))
  · rw [← nb]
    clear * - ob
    rcases ob with ⟨b, s⟩
    cases h1 : b.getLast? <;> cases h2 : s.head? <;> simp_all [List.head?_eq_none_iff, List.getLast?_eq_none_iff]
    all_goals (intros; intro e; first | (rw [e] at h1; simp at h1; done) | (rw [e] at h2; simp at h2; done))
  · intro x hx
    cases h1 : ob.buys.head? with
    | none =>
      cases h2 : ob.sells.getLast? with
      | none => rw [h1, h2] at hx; simp at hx
      | some b =>
        rw [h1, h2] at hx
        simp at hx
        subst hx
        refine ⟨orderS b (s2 b h2).1, fun p hp => ?_⟩
        rcases tickOf p hp with ⟨t, ht, e⟩ | ⟨t, ht, e⟩
        · exact absurd ht (nolist h1 t)
        · rw [← e]; exact (s2 b h2).2 t ht
    | some a =>
      cases h2 : ob.sells.getLast? with
      | none =>
        rw [h1, h2] at hx
        simp at hx
        subst hx
        refine ⟨orderB a (b1 a h1).1, fun p hp => ?_⟩
        rcases tickOf p hp with ⟨t, ht, e⟩ | ⟨t, ht, e⟩
        · rw [← e]; exact (b1 a h1).2 t ht
        · exact absurd ht (nolist' h2 t)
      | some b =>
        rw [h1, h2] at hx
        simp at hx
        subst hx
        refine ⟨?_, fun p hp => ?_⟩
        · rcases max_choice a.price b.price with e | e <;> rw [e]
          · exact orderB a (b1 a h1).1
          · exact orderS b (s2 b h2).1
        · rcases tickOf p hp with ⟨t, ht, e⟩ | ⟨t, ht, e⟩
          · rw [← e]; exact le_trans ((b1 a h1).2 t ht) (le_max_left _ _)
          · rw [← e]; exact le_trans ((s2 b h2).2 t ht) (le_max_right _ _)
  · intro x hx
    cases h1 : ob.buys.getLast? with
    | none =>
      cases h2 : ob.sells.head? with
      | none => rw [h1, h2] at hx; simp at hx
      | some b =>
        rw [h1, h2] at hx
        simp at hx
        subst hx
        refine ⟨orderS b (s1 b h2).1, fun p hp => ?_⟩
        rcases tickOf p hp with ⟨t, ht, e⟩ | ⟨t, ht, e⟩
        · exact absurd ht (nolist' h1 t)
        · rw [← e]; exact (s1 b h2).2 t ht
    | some a =>
      cases h2 : ob.sells.head? with
      | none =>
        rw [h1, h2] at hx
        simp at hx
        subst hx
        refine ⟨orderB a (b2 a h1).1, fun p hp => ?_⟩
        rcases tickOf p hp with ⟨t, ht, e⟩ | ⟨t, ht, e⟩
        · rw [← e]; exact (b2 a h1).2 t ht
        · exact absurd ht (nolist h2 t)
      | some b =>
        rw [h1, h2] at hx
        simp at hx
        subst hx
        refine ⟨?_, fun p hp => ?_⟩
        · rcases min_choice a.price b.price with e | e <;> rw [e]
          · exact orderB a (b2 a h1).1
          · exact orderS b (s1 b h2).1
        · rcases tickOf p hp with ⟨t, ht, e⟩ | ⟨t, ht, e⟩
          · rw [← e]; exact le_trans (min_le_left _ _) ((b2 a h1).2 t ht)
          · rw [← e]; exact le_trans (min_le_right _ _) ((s1 b h2).2 t ht)

/-- A small heap used as a witness: two buys at 1.1 (ids 0, 2), a buy at 1.0 (id 1), a worthless sell (id 3) and a sell
at 1.05 (id 4). -/
def demoHeap : Heap := fun
  | 0 => newBaseOrder .buy 1100000000000000000 1000 1100 (.user 1 5)
  | 1 => newBaseOrder .buy 1000000000000000000 2000 2000 (.user 2 5)
  | 2 => newBaseOrder .buy 1100000000000000000 500 550 (.user 3 4)
  | 3 => newBaseOrder .sell 1000000000000000 100 100 (.user 4 5)
  | _ => newBaseOrder .sell 1050000000000000000 1200 1200 (.user 5 5)

/-- Non-vacuity of C17: the book built from the witness heap. -/
example : newOrderBook demoHeap [0, 1, 2, 3, 4] =
    { buys := [⟨1100000000000000000, [0, 2]⟩, ⟨1000000000000000000, [1]⟩], sells := [⟨1050000000000000000, [4]⟩] } := by
  decide +kernel

/-- Non-vacuity: the extreme prices of the witness book are 1.1 and 1.0. -/
example : (newOrderBook demoHeap [0, 1, 2, 3, 4]).highestPrice = some 1100000000000000000 ∧
    (newOrderBook demoHeap [0, 1, 2, 3, 4]).lowestPrice = some 1000000000000000000 := by decide +kernel

/-- **C18** `GroupOrdersByBatchId`: one non-empty group per batch id, older batches first and batch 0 last; each group
holds exactly the orders with its batch id in their original relative order; together they are all the orders. -/
theorem C18_groups (h : Heap) (ps : List Nat) :
    let gs := groupOrdersByBatchId h ps
    gs.Pairwise (fun a b => Older a.batchId b.batchId) ∧
    (∀ g ∈ gs, g.orders ≠ [] ∧ g.orders = ps.filter (fun p => (h p).batchId == g.batchId)) ∧
    (∀ p ∈ ps, ∃ g ∈ gs, p ∈ g.orders) ∧ (gs.flatMap (·.orders)).Perm ps := by
  have hk := groupsOk_group h ps
  refine ⟨hk.sorted.imp (fun h1 => h1), fun g hg => ⟨hk.nonempty g hg, hk.content g hg⟩, ?_, group_perm h ps⟩
  intro p hp
  obtain ⟨g, hg, hb⟩ := hk.complete p hp
  refine ⟨g, hg, ?_⟩
  rw [hk.content g hg, List.mem_filter]
  exact ⟨hp, by simp [hb]⟩

/-- **C18** in terms of the kinds of orders: only user orders have a group after theirs, a later group holds no user order of
an earlier batch, and user orders of the same batch, or pool orders, are in one group. -/
theorem C18_pool_orders_last (h : Heap) (ps : List Nat) (A : List OrderGroup) (g : OrderGroup) (B : List OrderGroup)
    (hg : groupOrdersByBatchId h ps = A ++ g :: B) (p : Nat) (hp : p ∈ g.orders) :
    (∀ q ∈ B.flatMap (·.orders), ∃ i b, (h p).kind = .user i b ∧ b ≠ 0 ∧ ∀ j c, (h q).kind = .user j c → b < c ∨ c = 0) ∧
    (∀ i b, (h p).kind = .user i b → b ≠ 0 → ∀ q ∈ ps, q ∈ g.orders ↔ ∃ j, (h q).kind = .user j b) ∧
    (∀ i, (h p).kind = .pool i → ∀ q ∈ ps, q ∈ g.orders ↔ (∃ j, (h q).kind = .pool j) ∨ ∃ j, (h q).kind = .user j 0) := by
  obtain ⟨h1, h2, _, _⟩ := C18_groups h ps
  rw [hg] at h1 h2
  have hgc := (h2 g (by simp)).2
  have hpb : (h p).batchId = g.batchId := by
    rw [hgc, List.mem_filter] at hp; simpa using hp.2
  refine ⟨?_, ?_, ?_⟩
  · intro q hq
    obtain ⟨g', hg', hqg⟩ := List.mem_flatMap.1 hq
    have hqb : (h q).batchId = g'.batchId := by
      rw [(h2 g' (by simp [hg'])).2, List.mem_filter] at hqg; simpa using hqg.2
    have hold := (List.pairwise_cons.1 (List.pairwise_append.1 h1).2.1).1 g' hg'
    rw [← hpb, ← hqb] at hold
    unfold Older at hold
    cases hk : (h p).kind with
    | pool i => unfold Order.batchId at hold; rw [hk] at hold; simp at hold
    | user i b =>
      refine ⟨i, b, rfl, ?_, ?_⟩
      · unfold Order.batchId at hold; rw [hk] at hold; simp at hold; exact hold.1
      · intro j c hc
        unfold Order.batchId at hold
        rw [hk, hc] at hold
        simp at hold
        omega
  · intro i b hk hb0 q hq
    rw [hgc, List.mem_filter, ← hpb]
    simp only [hq, true_and, beq_iff_eq]
    unfold Order.batchId
    rw [hk]
    cases hkq : (h q).kind with
    | pool j => simp; exact fun e => hb0 e.symm
    | user j c => simp
  · intro i hk q hq
    rw [hgc, List.mem_filter, ← hpb]
    simp only [hq, true_and, beq_iff_eq]
    unfold Order.batchId
    rw [hk]
    cases hkq : (h q).kind with
    | pool j => simp
    | user j c => simp

/-- Non-vacuity of C18: batches 5 and 4 and a pool order. -/
example : groupOrdersByBatchId (fun | 9 => newPoolOrder 1 .buy 1000000000000000000 100 | n => demoHeap n) [0, 9, 2, 1] =
    [⟨4, [2]⟩, ⟨5, [0, 1]⟩, ⟨0, [9]⟩] := by decide +kernel

/-- Two orders are the same order for the purpose of priority: same amount and same order id (or same pool id). -/
def SameRank (a b : Order) : Prop := a.amount = b.amount ∧
  match a.kind, b.kind with
  | .user i _, .user j _ => i = j
  | .pool i, .pool j => i = j
  | _, _ => False

/-- **C19** `HasPriority` is irreflexive, transitive, and decides between any two orders that differ in amount or
identity (and only between those). -/
theorem C19_priority_strict_total (a b c : Order) :
    a.hasPriority a = false ∧
    (a.hasPriority b = true → b.hasPriority c = true → a.hasPriority c = true) ∧
    (¬ SameRank a b ↔ a.hasPriority b = true ∨ b.hasPriority a = true) := by
  refine ⟨hasPriority_irrefl a, hasPriority_trans, ?_⟩
  have hr : SameRank a b ↔ tied a b := by
    rw [tied_iff]; unfold SameRank
    cases a.kind <;> cases b.kind <;> rfl
  rw [hr]
  unfold tied
  cases a.hasPriority b <;> cases b.hasPriority a <;> simp

/-- **C19** Larger orders come first, whatever the kinds; with equal amounts user orders come before pool orders, and the
smaller id first. -/
theorem C19_priority_meaning (a b : Order) :
    (b.amount < a.amount → a.hasPriority b = true) ∧
    (a.amount = b.amount → ∀ i j k, a.kind = .user i k → b.kind = .pool j → a.hasPriority b = true) ∧
    (a.amount = b.amount → ∀ i j k l, a.kind = .user i k → b.kind = .user j l → i < j → a.hasPriority b = true) ∧
    (a.amount = b.amount → ∀ i j, a.kind = .pool i → b.kind = .pool j → i < j → a.hasPriority b = true) := by
  refine ⟨?_, ?_, ?_, ?_⟩
  · intro h1; unfold Order.hasPriority; rw [if_pos (by omega)]; simpa using h1
  · intro h1 i j k h2 h3; unfold Order.hasPriority; rw [if_neg (by omega), h2, h3]
  · intro h1 i j k l h2 h3 h4; unfold Order.hasPriority; rw [if_neg (by omega), h2, h3]; simpa using h4
  · intro h1 i j h2 h3 h4; unfold Order.hasPriority; rw [if_neg (by omega), h2, h3]; simpa using h4

/-- **C19** `SortOrders` yields a permutation in which no order comes after one it has priority over, and orders of equal
rank keep their relative order (stability). -/
theorem C19_sort (h : Heap) (ps : List Nat) :
    (sortOrders h ps).Perm ps ∧
    (sortOrders h ps).Pairwise (fun a b => (h b).hasPriority (h a) = false) ∧
    ∀ c : Order, (sortOrders h ps).filter (fun y => !(h y).hasPriority c && !c.hasPriority (h y)) =
      ps.filter (fun y => !(h y).hasPriority c && !c.hasPriority (h y)) :=
  ⟨sort_perm h ps, sort_sorted h ps, fun c => sort_stable h c ps⟩

/-- Non-vacuity of C19. -/
example : sortOrders demoHeap [0, 1, 2, 3, 4] = [1, 4, 0, 2, 3] ∧ (demoHeap 1).hasPriority (demoHeap 0) = true := by
  decide +kernel

end Verif.Props

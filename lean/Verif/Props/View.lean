import Verif.Proofs.MatchPrice
import Verif.Props.Order
/-! # Order views: properties C28, C29, C30, C31, C53 -/
namespace Verif.Props
open Verif Verif.Amm Verif.Spec

/-- **C28** The four depth functions of the view of a book equal the depth of the orders the book was built from:
buys at or above / strictly above the price, sells at or below / strictly below it. -/
theorem C28_depth (h : Heap) (ps : List Nat) (hl : ∀ p ∈ ps, Live (h p)) (price : Int) :
    (makeView h (newOrderBook h ps)).buyAmountOver price true = ownDepth h ps .buy (fun x => price ≤ x) ∧
    (makeView h (newOrderBook h ps)).buyAmountOver price false = ownDepth h ps .buy (fun x => price < x) ∧
    (makeView h (newOrderBook h ps)).sellAmountUnder price true = ownDepth h ps .sell (fun x => x ≤ price) ∧
    (makeView h (newOrderBook h ps)).sellAmountUnder price false = ownDepth h ps .sell (fun x => x < price) := by
  have hk := bookOk_new h ps
  refine ⟨?_, ?_, ?_, ?_⟩
  · have := (acc_cut (h := h) hk.buys.sorted (fun x => decide (x < price)) (by
      intro a b hab; unfold priceBefore at hab; simp at *; omega)).1
    rw [← ownTotal_side hk.buys hl]
    unfold OrderBookView.buyAmountOver makeView
    simp only [if_true]
    rw [this]; congr 1; apply List.filter_congr; intro t _; rw [Bool.eq_iff_iff]; simp
  · have := (acc_cut (h := h) hk.buys.sorted (fun x => decide (x ≤ price)) (by
      intro a b hab; unfold priceBefore at hab; simp at *; omega)).1
    rw [← ownTotal_side hk.buys hl]
    unfold OrderBookView.buyAmountOver makeView
    simp only [Bool.false_eq_true, if_false]
    rw [this]; congr 1; apply List.filter_congr; intro t _; rw [Bool.eq_iff_iff]; simp
  · have := (acc_cut (h := h) hk.sells.sorted (fun x => decide (x > price)) (by
      intro a b hab; unfold priceBefore at hab; simp at *; omega)).1
    rw [← ownTotal_side hk.sells hl]
    unfold OrderBookView.sellAmountUnder makeView
    simp only [if_true]
    rw [this]; congr 1; apply List.filter_congr; intro t _; rw [Bool.eq_iff_iff]; simp
  · have := (acc_cut (h := h) hk.sells.sorted (fun x => decide (x ≥ price)) (by
      intro a b hab; unfold priceBefore at hab; simp at *; omega)).1
    rw [← ownTotal_side hk.sells hl]
    unfold OrderBookView.sellAmountUnder makeView
    simp only [Bool.false_eq_true, if_false]
    rw [this]; congr 1; apply List.filter_congr; intro t _; rw [Bool.eq_iff_iff]; simp

/-- Complement of a price condition: the two parts add up to the total. -/
theorem ownDepth_split (h : Heap) (ps : List Nat) (d : Dir) (q : Int → Prop) [DecidablePred q] :
    ownDepth h ps d (fun _ => True) = ownDepth h ps d (fun x => ¬ q x) + ownDepth h ps d q := by
  unfold ownDepth
  induction ps with
  | nil => simp
  | cons p ps ih =>
    simp only [List.filter_cons]
    by_cases hd : (h p).dir = d
    · by_cases hq : q (h p).price
      · simp [hd, hq] at *; rw [ih]; ring
      · simp [hd, hq] at *; rw [ih]; ring
    · simp [hd] at *; exact ih

/-- **C28** The complementary depth functions: when the side has an order, they return the depth on the other side of
the price (so over + under parts add up to the total depth); on an empty side they panic. -/
theorem C28_other_side (h : Heap) (ps : List Nat) (hl : ∀ p ∈ ps, Live (h p)) (price : Int) :
    ((makeView h (newOrderBook h ps)).buyAmountUnder price true =
      if (∃ p ∈ ps, (h p).dir = .buy ∧ 0 < matchableAmount (h p) (h p).price)
      then some (ownDepth h ps .buy (fun x => x ≤ price)) else none) ∧
    ((makeView h (newOrderBook h ps)).buyAmountUnder price false =
      if (∃ p ∈ ps, (h p).dir = .buy ∧ 0 < matchableAmount (h p) (h p).price)
      then some (ownDepth h ps .buy (fun x => x < price)) else none) ∧
    ((makeView h (newOrderBook h ps)).sellAmountOver price true =
      if (∃ p ∈ ps, (h p).dir = .sell ∧ 0 < matchableAmount (h p) (h p).price)
      then some (ownDepth h ps .sell (fun x => price ≤ x)) else none) ∧
    ((makeView h (newOrderBook h ps)).sellAmountOver price false =
      if (∃ p ∈ ps, (h p).dir = .sell ∧ 0 < matchableAmount (h p) (h p).price)
      then some (ownDepth h ps .sell (fun x => price < x)) else none) := by
  have hk := bookOk_new h ps
  have hne : ∀ {inc : Bool} {d : Dir} {ts : List Tick}, TicksOk inc h (eligible h d ps) ts →
      ((∃ p ∈ ps, (h p).dir = d ∧ 0 < matchableAmount (h p) (h p).price) ↔ ts ≠ []) := by
    intro inc d ts hk
    constructor
    · rintro ⟨p, hp, hd, hm⟩ rfl
      obtain ⟨t, ht, _⟩ := hk.complete p (by unfold eligible; rw [List.mem_filter]; exact ⟨hp, by simp [hd, hm]⟩)
      cases ht
    · intro hn
      obtain ⟨t, ht⟩ := List.exists_mem_of_ne_nil _ hn
      obtain ⟨p, hp⟩ := List.exists_mem_of_ne_nil _ (hk.nonempty t ht)
      rw [hk.content t ht, List.mem_filter] at hp
      have hp := hp.1
      unfold eligible at hp; rw [List.mem_filter] at hp
      exact ⟨p, hp.1, by simpa using hp.2⟩
  have key : ∀ {inc : Bool} {d : Dir} {ts : List Tick} (_ : TicksOk inc h (eligible h d ps) ts) (c : Int → Bool)
      (_ : ∀ a b, priceBefore inc a b → c a = true → c b = true),
      (match (accSums h ts 0).getLast? with
        | none => none
        | some l => if searchList (accSums h ts 0) (fun a => c a.price) = 0 then some l.sum else
          some (l.sum - sumBefore (accSums h ts 0) (searchList (accSums h ts 0) (fun a => c a.price)))) =
      if (∃ p ∈ ps, (h p).dir = d ∧ 0 < matchableAmount (h p) (h p).price)
        then some (ownTotal h (ts.filter (fun t => c t.price))) else none := by
    intro inc d ts hk c hc
    obtain ⟨e1, e2⟩ := acc_cut (h := h) hk.sorted c hc
    by_cases hn : ts = []
    · rw [if_neg (by rw [hne hk]; simpa using hn)]; subst hn; simp [accSums]
    · rw [if_pos ((hne hk).2 hn)]
      obtain ⟨l, hl1, hl2⟩ := acc_last h ts hn
      rw [hl1]
      simp only
      have hz : searchList (accSums h ts 0) (fun a => c a.price) = 0 →
          sumBefore (accSums h ts 0) (searchList (accSums h ts 0) (fun a => c a.price)) = 0 := by
        intro h0; rw [h0]; simp [sumBefore]
      split
      · rename_i h0
        have := hz h0
        rw [e1] at this
        congr 1; omega
      · rw [e1]; congr 1; omega
  refine ⟨?_, ?_, ?_, ?_⟩
  · have := key hk.buys (fun x => decide (x ≤ price)) (by intro a b hab; unfold priceBefore at hab; simp at *; omega)
    rw [ownTotal_side hk.buys hl (fun x => x ≤ price)] at this
    refine Eq.trans ?_ this; unfold OrderBookView.buyAmountUnder makeView; simp only [if_true]
    cases (accSums h (newOrderBook h ps).buys 0).getLast? <;> rfl
  · have := key hk.buys (fun x => decide (x < price)) (by intro a b hab; unfold priceBefore at hab; simp at *; omega)
    rw [ownTotal_side hk.buys hl (fun x => x < price)] at this
    refine Eq.trans ?_ this; unfold OrderBookView.buyAmountUnder makeView; simp only [Bool.false_eq_true, if_false]
    cases (accSums h (newOrderBook h ps).buys 0).getLast? <;> rfl
  · have := key hk.sells (fun x => decide (x ≥ price)) (by intro a b hab; unfold priceBefore at hab; simp at *; omega)
    rw [ownTotal_side hk.sells hl (fun x => x ≥ price)] at this
    refine Eq.trans ?_ this; unfold OrderBookView.sellAmountOver makeView; simp only [if_true]
    cases (accSums h (newOrderBook h ps).sells 0).getLast? <;> rfl
  · have := key hk.sells (fun x => decide (x > price)) (by intro a b hab; unfold priceBefore at hab; simp at *; omega)
    rw [ownTotal_side hk.sells hl (fun x => x > price)] at this
    refine Eq.trans ?_ this; unfold OrderBookView.sellAmountOver makeView; simp only [Bool.false_eq_true, if_false]
    cases (accSums h (newOrderBook h ps).sells 0).getLast? <;> rfl

/-- Best price of one side in terms of the orders. -/
theorem best_side {h : Heap} {ps : List Nat} {inc : Bool} {d : Dir} {ts : List Tick}
    (hk : TicksOk inc h (eligible h d ps) ts) :
    let best := (accSums h ts 0)[searchList (accSums h ts 0) (fun a => decide (0 < a.sum))]?.map (·.price)
    (∀ b, best = some b ↔
      (∃ p ∈ ps, (h p).dir = d ∧ 0 < matchableAmount (h p) (h p).price ∧ (h p).price = b) ∧
      ∀ p ∈ ps, (h p).dir = d → 0 < matchableAmount (h p) (h p).price → (h p).price = b ∨ priceBefore inc b (h p).price) ∧
    (best = none ↔ ∀ p ∈ ps, (h p).dir = d → matchableAmount (h p) (h p).price ≤ 0) := by
  intro best
  obtain ⟨b1, b2⟩ := accSums_pairwise (h := h) 0 hk.sorted hk.total_pos (le_refl _)
  have hv : SideView inc (accSums h ts 0) := ⟨b1.imp (fun h => ⟨h.1, le_of_lt h.2⟩), fun a ha => le_of_lt (b2 a ha).1⟩
  have hel : ∀ p, p ∈ eligible h d ps ↔ p ∈ ps ∧ (h p).dir = d ∧ 0 < matchableAmount (h p) (h p).price := by
    intro p; unfold eligible; rw [List.mem_filter]; simp
  have hto : ∀ p ∈ eligible h d ps, ∃ a ∈ accSums h ts 0, a.price = (h p).price := by
    intro p hp
    obtain ⟨t, ht, e⟩ := hk.complete p hp
    have : t.price ∈ (accSums h ts 0).map (·.price) := by rw [accSums_price]; exact List.mem_map.2 ⟨t, ht, rfl⟩
    obtain ⟨a, ha, e'⟩ := List.mem_map.1 this
    exact ⟨a, ha, by rw [e', e]⟩
  have hof : ∀ a ∈ accSums h ts 0, ∃ p ∈ eligible h d ps, (h p).price = a.price := by
    intro a ha
    obtain ⟨_, t, ht, e⟩ := b2 a ha
    obtain ⟨p, hp⟩ := List.exists_mem_of_ne_nil _ (hk.nonempty t ht)
    have he := hk.price_eq t ht p hp
    rw [hk.content t ht, List.mem_filter] at hp
    exact ⟨p, hp.1, by rw [he, e]⟩
  obtain ⟨s1, s2⟩ := best_spec hv
  constructor
  · intro b
    rw [s1 b]
    constructor
    · rintro ⟨⟨a, ha, rfl, _⟩, hall⟩
      constructor
      · obtain ⟨p, hp, e⟩ := hof a ha
        have := (hel p).1 hp
        exact ⟨p, this.1, this.2.1, this.2.2, e⟩
      · intro p hp hd hm
        obtain ⟨c, hc, e⟩ := hto p ((hel p).2 ⟨hp, hd, hm⟩)
        rw [← e]; exact hall c hc (b2 c hc).1
    · rintro ⟨⟨p, hp, hd, hm, rfl⟩, hall⟩
      constructor
      · obtain ⟨c, hc, e⟩ := hto p ((hel p).2 ⟨hp, hd, hm⟩)
        exact ⟨c, hc, e, (b2 c hc).1⟩
      · intro a ha _
        obtain ⟨q, hq, e⟩ := hof a ha
        rw [← e]; have := (hel q).1 hq
        exact hall q this.1 this.2.1 this.2.2
  · rw [s2]
    constructor
    · intro hall p hp hd
      by_contra hc
      obtain ⟨c, hc', _⟩ := hto p ((hel p).2 ⟨hp, hd, by omega⟩)
      have := hall c hc'; have := (b2 c hc').1; omega
    · intro hall a ha
      obtain ⟨p, hp, _⟩ := hof a ha
      have h1 := (hel p).1 hp
      have := hall p h1.1 h1.2.1; omega

/-- **C28** Best prices of the view: the highest limit price of a matchable buy, the lowest of a matchable sell. -/
theorem C28_best_prices (h : Heap) (ps : List Nat) :
    (∀ b, (makeView h (newOrderBook h ps)).highestBuyPrice = some b ↔
      (∃ p ∈ ps, (h p).dir = .buy ∧ 0 < matchableAmount (h p) (h p).price ∧ (h p).price = b) ∧
      ∀ p ∈ ps, (h p).dir = .buy → 0 < matchableAmount (h p) (h p).price → (h p).price ≤ b) ∧
    (∀ s, (makeView h (newOrderBook h ps)).lowestSellPrice = some s ↔
      (∃ p ∈ ps, (h p).dir = .sell ∧ 0 < matchableAmount (h p) (h p).price ∧ (h p).price = s) ∧
      ∀ p ∈ ps, (h p).dir = .sell → 0 < matchableAmount (h p) (h p).price → s ≤ (h p).price) := by
  have hk := bookOk_new h ps
  constructor
  · intro b
    have := (best_side hk.buys).1 b
    refine Iff.trans this ?_
    simp only [priceBefore, Bool.false_eq_true, if_false]
    constructor <;> rintro ⟨h1, h2⟩ <;> refine ⟨h1, fun p hp hd hm => ?_⟩ <;> have := h2 p hp hd hm <;> omega
  · intro b
    have := (best_side hk.sells).1 b
    refine Iff.trans this ?_
    simp only [priceBefore, if_true]
    constructor <;> rintro ⟨h1, h2⟩ <;> refine ⟨h1, fun p hp hd hm => ?_⟩ <;> have := h2 p hp hd hm <;> omega

/-- Non-vacuity of C28: all witness orders are live, and depths are what one counts by hand. -/
example : (∀ p ∈ [0, 1, 2, 3, 4], Live (demoHeap p)) ∧
    [(makeView demoHeap (newOrderBook demoHeap [0, 1, 2, 3, 4])).buyAmountOver 1100000000000000000 true,
     (makeView demoHeap (newOrderBook demoHeap [0, 1, 2, 3, 4])).buyAmountOver 1000000000000000000 true,
     (makeView demoHeap (newOrderBook demoHeap [0, 1, 2, 3, 4])).sellAmountUnder 1050000000000000000 true] =
     [1500, 3500, 1200] ∧
    (makeView demoHeap (newOrderBook demoHeap [0, 1, 2, 3, 4])).highestBuyPrice = some 1100000000000000000 ∧
    (makeView demoHeap (newOrderBook demoHeap [0, 1, 2, 3, 4])).buyAmountUnder 1050000000000000000 true = some 2000 := by
  refine ⟨?_, by decide +kernel, by decide +kernel, by decide +kernel⟩
  intro p hp
  simp only [List.mem_cons, List.not_mem_nil, or_false] at hp
  rcases hp with rfl | rfl | rfl | rfl | rfl <;> constructor <;> decide

/-- **C29** A combined view adds the depths of its parts; its best buy price is the maximum of those present and its best
sell price the minimum of those present (none when no part has one). -/
theorem C29_combined (vs : List OrderView) (price : Int) (incl : Bool) :
    (multipleOrderViews vs).buyAmountOver price incl = (vs.map (fun v => v.buyAmountOver price incl)).sum ∧
    (multipleOrderViews vs).sellAmountUnder price incl = (vs.map (fun v => v.sellAmountUnder price incl)).sum ∧
    (∀ b, (multipleOrderViews vs).highestBuyPrice = some b ↔
      (∃ v ∈ vs, v.highestBuyPrice = some b) ∧ ∀ v ∈ vs, ∀ c, v.highestBuyPrice = some c → c ≤ b) ∧
    ((multipleOrderViews vs).highestBuyPrice = none ↔ ∀ v ∈ vs, v.highestBuyPrice = none) ∧
    (∀ s, (multipleOrderViews vs).lowestSellPrice = some s ↔
      (∃ v ∈ vs, v.lowestSellPrice = some s) ∧ ∀ v ∈ vs, ∀ c, v.lowestSellPrice = some c → s ≤ c) ∧
    ((multipleOrderViews vs).lowestSellPrice = none ↔ ∀ v ∈ vs, v.lowestSellPrice = none) := by
  have hH : ∀ (vs : List OrderView) (acc : Option Int),
      (∀ b, multiHighest vs acc = some b ↔ ((acc = some b ∨ ∃ v ∈ vs, v.highestBuyPrice = some b) ∧
        (∀ c, acc = some c → c ≤ b) ∧ ∀ v ∈ vs, ∀ c, v.highestBuyPrice = some c → c ≤ b)) ∧
      (multiHighest vs acc = none ↔ acc = none ∧ ∀ v ∈ vs, v.highestBuyPrice = none) := by
    intro vs
    induction vs with
    | nil =>
      intro acc
      simp only [multiHighest, List.not_mem_nil, false_and, exists_false, or_false, false_imp_iff, implies_true, and_true]
      intro b
      constructor
      · rintro rfl; exact ⟨rfl, fun c hc => by cases hc; exact le_refl _⟩
      · rintro ⟨h, _⟩; exact h
    | cons v vs ih =>
      intro acc
      simp only [multiHighest]
      refine ⟨fun b => ?_, ?_⟩
      · rw [(ih _).1 b]
        simp only [List.mem_cons, exists_eq_or_imp, forall_eq_or_imp]
        cases hv : v.highestBuyPrice with
        | none => simp
        | some p =>
          cases acc with
          | none => simp
          | some q =>
            simp only [Option.some.injEq, forall_eq']
            split
            · simp only [Option.some.injEq, forall_eq']
              constructor
              · rintro ⟨h1, h2, h3⟩; exact ⟨by tauto, by omega, by omega, h3⟩
              · rintro ⟨h1, h2, h3, h4⟩
                refine ⟨?_, h3, h4⟩
                rcases h1 with h | h | h
                · omega
                · exact Or.inl h
                · exact Or.inr h
            · simp only [Option.some.injEq, forall_eq']
              constructor
              · rintro ⟨h1, h2, h3⟩; exact ⟨by tauto, by omega, by omega, h3⟩
              · rintro ⟨h1, h2, h3, h4⟩
                refine ⟨?_, h2, h4⟩
                rcases h1 with h | h | h
                · exact Or.inl h
                · left; omega
                · exact Or.inr h
      · rw [(ih _).2]
        simp only [List.mem_cons, forall_eq_or_imp]
        cases hv : v.highestBuyPrice with
        | none => simp
        | some p =>
          cases acc with
          | none => simp
          | some q => simp only; split <;> simp
  have hL : ∀ (vs : List OrderView) (acc : Option Int),
      (∀ b, multiLowest vs acc = some b ↔ ((acc = some b ∨ ∃ v ∈ vs, v.lowestSellPrice = some b) ∧
        (∀ c, acc = some c → b ≤ c) ∧ ∀ v ∈ vs, ∀ c, v.lowestSellPrice = some c → b ≤ c)) ∧
      (multiLowest vs acc = none ↔ acc = none ∧ ∀ v ∈ vs, v.lowestSellPrice = none) := by
    intro vs
    induction vs with
    | nil =>
      intro acc
      simp only [multiLowest, List.not_mem_nil, false_and, exists_false, or_false, false_imp_iff, implies_true, and_true]
      intro b
      constructor
      · rintro rfl; exact ⟨rfl, fun c hc => by cases hc; exact le_refl _⟩
      · rintro ⟨h, _⟩; exact h
    | cons v vs ih =>
      intro acc
      simp only [multiLowest]
      refine ⟨fun b => ?_, ?_⟩
      · rw [(ih _).1 b]
        simp only [List.mem_cons, exists_eq_or_imp, forall_eq_or_imp]
        cases hv : v.lowestSellPrice with
        | none => simp
        | some p =>
          cases acc with
          | none => simp
          | some q =>
            simp only [Option.some.injEq, forall_eq']
            split
            · simp only [Option.some.injEq, forall_eq']
              constructor
              · rintro ⟨h1, h2, h3⟩; exact ⟨by tauto, by omega, by omega, h3⟩
              · rintro ⟨h1, h2, h3, h4⟩
                refine ⟨?_, h3, h4⟩
                rcases h1 with h | h | h
                · omega
                · exact Or.inl h
                · exact Or.inr h
            · simp only [Option.some.injEq, forall_eq']
              constructor
              · rintro ⟨h1, h2, h3⟩; exact ⟨by tauto, by omega, by omega, h3⟩
              · rintro ⟨h1, h2, h3, h4⟩
                refine ⟨?_, h2, h4⟩
                rcases h1 with h | h | h
                · exact Or.inl h
                · left; omega
                · exact Or.inr h
      · rw [(ih _).2]
        simp only [List.mem_cons, forall_eq_or_imp]
        cases hv : v.lowestSellPrice with
        | none => simp
        | some p =>
          cases acc with
          | none => simp
          | some q => simp only; split <;> simp
  refine ⟨?_, ?_, ?_, ?_, ?_, ?_⟩
  · simp only [multipleOrderViews]; rw [foldl_add_eq]; ring
  · simp only [multipleOrderViews]; rw [foldl_add_eq]; ring
  · intro b; simpa [multipleOrderViews] using (hH vs none).1 b
  · simpa [multipleOrderViews] using (hH vs none).2
  · intro b; simpa [multipleOrderViews] using (hL vs none).1 b
  · simpa [multipleOrderViews] using (hL vs none).2

/-- Non-vacuity of C29: two book views with different best prices. -/
example : (multipleOrderViews [(makeView demoHeap (newOrderBook demoHeap [1])).toView,
      (makeView demoHeap (newOrderBook demoHeap [0, 4])).toView]).highestBuyPrice = some 1100000000000000000 ∧
    (multipleOrderViews [(makeView demoHeap (newOrderBook demoHeap [1])).toView,
      (makeView demoHeap (newOrderBook demoHeap [0, 4])).toView]).buyAmountOver 1000000000000000000 true = 3000 := by
  decide +kernel

/-- **C30** Ascending search (`start < end`): the result is the first index from `start` at which the condition holds;
not found iff it holds nowhere in the range. -/
theorem C30_ascending (start stop : Int) (f : Int → Bool) (h : start < stop)
    (hmono : ∀ a b, start ≤ a → a ≤ b → b ≤ stop → f a = true → f b = true) :
    (∀ i, findFirstTrueCondition start stop f = some i ↔
      start ≤ i ∧ i ≤ stop ∧ f i = true ∧ ∀ a, start ≤ a → a < i → f a = false) ∧
    (findFirstTrueCondition start stop f = none ↔ ∀ a, start ≤ a → a ≤ stop → f a = false) :=
  findFirst_up h hmono

/-- **C30** Descending search (`start ≥ end`): the result is the first index, counting down from `start`, at which the
condition holds; not found iff it holds nowhere in the range. -/
theorem C30_descending (start stop : Int) (f : Int → Bool) (h : stop ≤ start)
    (hmono : ∀ a b, stop ≤ a → a ≤ b → b ≤ start → f b = true → f a = true) :
    (∀ i, findFirstTrueCondition start stop f = some i ↔
      stop ≤ i ∧ i ≤ start ∧ f i = true ∧ ∀ a, i < a → a ≤ start → f a = false) ∧
    (findFirstTrueCondition start stop f = none ↔ ∀ a, stop ≤ a → a ≤ start → f a = false) :=
  findFirst_down h hmono

/-- Non-vacuity of C30. -/
example : findFirstTrueCondition (-5) 100 (fun i => decide (i * i ≥ 50 ∧ i > 0)) = some 8 ∧
    findFirstTrueCondition 100 (-5) (fun i => decide (i ≤ 7)) = some 7 ∧
    findFirstTrueCondition 3 3 (fun i => decide (i = 4)) = none := by decide +kernel

/-- **C53** `Match` on the view of a book removes the largest amount `m` that can trade at a single price from both sides:
every accumulated depth becomes `max 0 (depth - m)`, sums stay sorted, and afterwards the best buy price lies strictly below
the best sell price.  PARTIAL: excluded is the case in which `m` is positive and equals the whole depth of both sides. -/
theorem C53_uncrossed_partial (h : Heap) (ps : List Nat) (m : Int)
    (hm : IsBestMatch (makeView h (newOrderBook h ps)) m)
    (hc : (∃ p, m < (makeView h (newOrderBook h ps)).buyAmountOver p true) ∨
      (∃ p, m < (makeView h (newOrderBook h ps)).sellAmountUnder p true) ∨ m = 0) :
    let v := makeView h (newOrderBook h ps)
    (∀ p incl, v.match.buyAmountOver p incl = max 0 (v.buyAmountOver p incl - m) ∧
      v.match.sellAmountUnder p incl = max 0 (v.sellAmountUnder p incl - m)) ∧
    (∀ a ∈ v.match.buys ++ v.match.sells, 0 ≤ a.sum) ∧
    v.match.buys.Pairwise (fun a b => a.price > b.price ∧ a.sum ≤ b.sum) ∧
    v.match.sells.Pairwise (fun a b => a.price < b.price ∧ a.sum ≤ b.sum) ∧
    (∀ b s, v.match.highestBuyPrice = some b → v.match.lowestSellPrice = some s → b < s) := by
  intro v
  obtain ⟨hv, _, _⟩ := view_ok h ps
  have hv' := match_view_ok hv m
  have e : v.match = _ := match_spec hv hm hc
  have hB : ∀ p incl, v.match.buyAmountOver p incl = max 0 (v.buyAmountOver p incl - m) := by
    intro p incl
    rw [e]
    exact (buyOver_acc hv' p incl).unique (isAcc_cut hm.nonneg (buyOver_acc hv p incl))
  have hS : ∀ p incl, v.match.sellAmountUnder p incl = max 0 (v.sellAmountUnder p incl - m) := by
    intro p incl
    rw [e]
    exact (sellUnder_acc hv' p incl).unique (isAcc_cut hm.nonneg (sellUnder_acc hv p incl))
  refine ⟨fun p incl => ⟨hB p incl, hS p incl⟩, ?_, ?_, ?_, ?_⟩
  · intro a ha
    rw [e] at ha
    rcases List.mem_append.1 ha with ha | ha
    · exact hv'.buys.nonneg a ha
    · exact hv'.sells.nonneg a ha
  · rw [e]; refine hv'.buys.sorted.imp ?_; intro a b hab; unfold priceBefore at hab; simpa using hab
  · rw [e]; refine hv'.sells.sorted.imp ?_; intro a b hab; unfold priceBefore at hab; simpa using hab
  · intro b s hb hs
    rw [e] at hb hs
    obtain ⟨⟨x, hx, rfl, hxp⟩, _⟩ := ((best_spec hv'.buys).1 b).1 hb
    obtain ⟨⟨y, hy, rfl, hyp⟩, _⟩ := ((best_spec hv'.sells).1 s).1 hs
    have h1 := hB x.price true
    rw [e, buyOver_self hv' hx] at h1
    have h2 := hS y.price true
    rw [e, sellUnder_self hv' hy] at h2
    by_contra hge
    have h3 := sellUnder_mono hv (show y.price ≤ x.price by omega)
    have h4 := hm.bound x.price
    change min (v.buyAmountOver _ _) (v.sellAmountUnder _ _) ≤ m at h4
    change v.sellAmountUnder _ _ ≤ v.sellAmountUnder _ _ at h3
    omega

/-- **C53** The amount `m` of `C53_uncrossed_partial` always exists and is unique. -/
theorem C53_best_match_exists (h : Heap) (ps : List Nat) : ∃! m, IsBestMatch (makeView h (newOrderBook h ps)) m := by
  obtain ⟨m, hm⟩ := best_exists (view_ok h ps).1
  exact ⟨m, hm, fun n hn => hn.unique hm⟩

/-- **C53** The excluded case: when both sides match completely, `Match` does nothing and the view stays crossed. -/
theorem C53_balanced_view_left_crossed (h : Heap) (ps : List Nat) (m : Int)
    (hm : IsBestMatch (makeView h (newOrderBook h ps)) m) (h0 : 0 < m)
    (hB : ∀ p, (makeView h (newOrderBook h ps)).buyAmountOver p true ≤ m)
    (hS : ∀ p, (makeView h (newOrderBook h ps)).sellAmountUnder p true ≤ m) :
    (makeView h (newOrderBook h ps)).match = makeView h (newOrderBook h ps) ∧
    ∃ p, 0 < (makeView h (newOrderBook h ps)).match.buyAmountOver p true ∧
      0 < (makeView h (newOrderBook h ps)).match.sellAmountUnder p true := by
  obtain ⟨hv, h1, h2⟩ := view_ok h ps
  have e := match_balanced hv h1 h2 hm h0 hB hS
  refine ⟨e, ?_⟩
  rw [e]
  rcases hm.attained with hz | ⟨p, hp⟩
  · omega
  · exact ⟨p, by omega, by omega⟩

/-- **C53** is false as stated in full: a buy and a sell of 1000 at price 1 stay crossed after `Match`. -/
theorem C53_not_uncrossed :
    ∃ (h : Heap) (ps : List Nat) (p : Int), (∀ i ∈ ps, Live (h i)) ∧
      (makeView h (newOrderBook h ps)).match.highestBuyPrice = some p ∧
      (makeView h (newOrderBook h ps)).match.lowestSellPrice = some p := by
  refine ⟨fun n => if n = 0 then newBaseOrder .buy 1000000000000000000 1000 1000 (.user 1 1)
    else newBaseOrder .sell 1000000000000000000 1000 1000 (.user 2 1), [0, 1], 1000000000000000000, ?_, ?_, ?_⟩
  · intro i hi
    simp only [List.mem_cons, List.not_mem_nil, or_false] at hi
    rcases hi with rfl | rfl <;> constructor <;> decide
  · decide +kernel
  · decide +kernel

/-- Non-vacuity of C53: in the witness book 1200 can trade at 1.05, buys exceed that. -/
example : ((makeView demoHeap (newOrderBook demoHeap [0, 1, 2, 4])).match.buys.map (·.sum) = [300, 2300]) ∧
    ((makeView demoHeap (newOrderBook demoHeap [0, 1, 2, 4])).match.sells.map (·.sum) = [0]) := by decide +kernel

example : IsBestMatch (makeView demoHeap (newOrderBook demoHeap [0, 1, 2, 4])) 1200 ∧
    (∃ p, 1200 < (makeView demoHeap (newOrderBook demoHeap [0, 1, 2, 4])).buyAmountOver p true) := by
  refine ⟨?_, 1000000000000000000, by decide +kernel⟩
  obtain ⟨m, hm⟩ := best_exists (view_ok demoHeap [0, 1, 2, 4]).1
  have h1 := hm.bound 1050000000000000000
  have h2 : min ((makeView demoHeap (newOrderBook demoHeap [0, 1, 2, 4])).buyAmountOver 1050000000000000000 true)
    ((makeView demoHeap (newOrderBook demoHeap [0, 1, 2, 4])).sellAmountUnder 1050000000000000000 true) = 1200 := by
    decide +kernel
  have h3 : m ≤ 1200 := by
    rcases hm.attained with e | ⟨p, e⟩
    · omega
    · have := (sellUnder_acc (view_ok demoHeap [0, 1, 2, 4]).1 p true).attained
      rcases this with e' | ⟨a, ha, _, e'⟩
      · omega
      · have hall : ∀ a ∈ (makeView demoHeap (newOrderBook demoHeap [0, 1, 2, 4])).sells, a.sum ≤ 1200 := by decide +kernel
        have := hall a ha; omega
  rw [h2] at h1
  have : m = 1200 := by omega
  exact this ▸ hm

/-- **C31** When a first match price is found, both best prices exist and cross, and the price is a tick next to the
midpoint of `ti` and `tj` (hence between them), where `ti` is the lowest tick at which the sells cover all buys above and
`tj` the highest tick at which the buys cover all sells below. -/
theorem C31_found (ov : OrderView) (prec : Nat) (hv : MonotoneView ov) (hp : prec ≤ 18) (m : Int)
    (hm : findMatchPrice ov prec = some m) :
    (∃ b s, ov.highestBuyPrice = some b ∧ ov.lowestSellPrice = some s ∧ s ≤ b) ∧
    ∃ ti tj, LowestSellCover ov prec ti ∧ HighestBuyCover ov prec tj ∧
      InRange prec m ∧ min ti tj ≤ m ∧ m ≤ max ti tj ∧
      (IsFloorTick prec ((ti + tj) / 2) m ∨ IsCeilTick prec ((ti + tj) / 2) m) := by
  unfold findMatchPrice at hm
  cases hb : ov.highestBuyPrice with
  | none => rw [hb] at hm; cases hm
  | some b =>
  cases hs : ov.lowestSellPrice with
  | none => rw [hb, hs] at hm; cases hm
  | some s =>
  rw [hb, hs] at hm
  simp only at hm
  split at hm
  · cases hm
  rename_i hbs
  rw [index_lowest] at hm
  change (match findFirstTrueCondition 0 (topIndex prec) (matchPriceUp ov prec) with
    | none => none
    | some i => match findFirstTrueCondition (topIndex prec) 0 (matchPriceDown ov prec) with
      | none => none
      | some j => some (roundPrice ((tickFromIndex i prec + tickFromIndex j prec).tdiv 2) prec)) = some m at hm
  have hH := topIndex_pos hp
  have hU := C30_ascending 0 (topIndex prec) (matchPriceUp ov prec) hH (fun a b h0 hab _ h => up_mono hv h0 hab h)
  have hD := C30_descending (topIndex prec) 0 (matchPriceDown ov prec) (le_of_lt hH)
    (fun a b h0 hab _ h => down_mono hv h0 hab h)
  cases hi : findFirstTrueCondition 0 (topIndex prec) (matchPriceUp ov prec) with
  | none => rw [hi] at hm; cases hm
  | some i =>
  cases hj : findFirstTrueCondition (topIndex prec) 0 (matchPriceDown ov prec) with
  | none => rw [hi, hj] at hm; cases hm
  | some j =>
  rw [hi, hj] at hm
  simp only [Option.some.injEq] at hm
  obtain ⟨i1, i2, i3, i4⟩ := (hU.1 i).1 hi
  obtain ⟨j1, j2, j3, j4⟩ := (hD.1 j).1 hj
  refine ⟨⟨b, s, rfl, rfl, by omega⟩, tickFromIndex i prec, tickFromIndex j prec, ?_, ?_, ?_⟩
  · refine ⟨(inRange_iff hp _).2 ⟨i, i1, i2, rfl⟩, (up_iff i1).1 i3, ?_⟩
    intro u hu hc
    obtain ⟨k, k1, k2, rfl⟩ := (inRange_iff hp u).1 hu
    have := (up_iff k1).2 hc
    by_contra hlt
    have hk : k < i := by
      by_contra hge
      have := fromIndex_le i1 (show i ≤ k by omega) prec; omega
    rw [i4 k k1 hk] at this; cases this
  · refine ⟨(inRange_iff hp _).2 ⟨j, j1, j2, rfl⟩, (down_iff hv j1).1 j3, ?_⟩
    intro u hu hc
    obtain ⟨k, k1, k2, rfl⟩ := (inRange_iff hp u).1 hu
    have := (down_iff hv k1).2 hc
    by_contra hlt
    have hk : j < k := by
      by_contra hge
      have := fromIndex_le k1 (show k ≤ j by omega) prec; omega
    rw [j4 k hk k2] at this; cases this
  · have hi' := (inRange_iff hp _).2 ⟨i, i1, i2, rfl⟩
    have hj' := (inRange_iff hp _).2 ⟨j, j1, j2, rfl⟩
    have hpos := lowestTick_pos prec
    have hl1 := hi'.2.1
    have hl2 := hj'.2.1
    rw [Int.tdiv_eq_ediv_of_nonneg (by omega)] at hm
    rcases le_total (tickFromIndex i prec) (tickFromIndex j prec) with hle | hle
    · obtain ⟨r1, r2, r3, r4⟩ := round_between hi'.1 hj'.1 hl1
        (show tickFromIndex i prec ≤ (tickFromIndex i prec + tickFromIndex j prec) / 2 by omega) (by omega)
      rw [hm] at r1 r2 r3 r4
      exact ⟨⟨r1, by omega, le_trans r3 hj'.2.2⟩, by omega, by omega, r4⟩
    · obtain ⟨r1, r2, r3, r4⟩ := round_between hj'.1 hi'.1 hl2
        (show tickFromIndex j prec ≤ (tickFromIndex i prec + tickFromIndex j prec) / 2 by omega) (by omega)
      rw [hm] at r1 r2 r3 r4
      exact ⟨⟨r1, by omega, le_trans r3 hi'.2.2⟩, by omega, by omega, r4⟩

/-- **C31** No first match price is found iff a side is empty, the best prices do not cross, or one of the two covering
ticks does not exist. -/
theorem C31_not_found (ov : OrderView) (prec : Nat) (hv : MonotoneView ov) (hp : prec ≤ 18) :
    findMatchPrice ov prec = none ↔
      (¬ ∃ b s, ov.highestBuyPrice = some b ∧ ov.lowestSellPrice = some s ∧ s ≤ b) ∨
      (∀ t, InRange prec t → ¬ SellCovers ov prec t) ∨ (∀ t, InRange prec t → ¬ BuyCovers ov prec t) := by
  unfold findMatchPrice
  cases hb : ov.highestBuyPrice with
  | none => simp
  | some b =>
  cases hs : ov.lowestSellPrice with
  | none => simp
  | some s =>
  simp only
  split
  · rename_i hlt
    simp only [true_iff]
    left
    rintro ⟨b', s', e1, e2, h⟩
    cases e1; cases e2; omega
  rename_i hbs
  rw [index_lowest]
  change (match findFirstTrueCondition 0 (topIndex prec) (matchPriceUp ov prec) with
    | none => none
    | some i => match findFirstTrueCondition (topIndex prec) 0 (matchPriceDown ov prec) with
      | none => none
      | some j => some (roundPrice ((tickFromIndex i prec + tickFromIndex j prec).tdiv 2) prec)) = none ↔ _
  have hH := topIndex_pos hp
  have hU := C30_ascending 0 (topIndex prec) (matchPriceUp ov prec) hH (fun a b h0 hab _ h => up_mono hv h0 hab h)
  have hD := C30_descending (topIndex prec) 0 (matchPriceDown ov prec) (le_of_lt hH)
    (fun a b h0 hab _ h => down_mono hv h0 hab h)
  have hUn : findFirstTrueCondition 0 (topIndex prec) (matchPriceUp ov prec) = none ↔
      ∀ t, InRange prec t → ¬ SellCovers ov prec t := by
    rw [hU.2]
    constructor
    · intro h t ht hc
      obtain ⟨k, k1, k2, rfl⟩ := (inRange_iff hp t).1 ht
      have := h k k1 k2
      rw [(up_iff k1).2 hc] at this; cases this
    · intro h k k1 k2
      by_contra hc
      exact h _ ((inRange_iff hp _).2 ⟨k, k1, k2, rfl⟩) ((up_iff k1).1 (by simpa using hc))
  have hDn : findFirstTrueCondition (topIndex prec) 0 (matchPriceDown ov prec) = none ↔
      ∀ t, InRange prec t → ¬ BuyCovers ov prec t := by
    rw [hD.2]
    constructor
    · intro h t ht hc
      obtain ⟨k, k1, k2, rfl⟩ := (inRange_iff hp t).1 ht
      have := h k k1 k2
      rw [(down_iff hv k1).2 hc] at this; cases this
    · intro h k k1 k2
      by_contra hc
      exact h _ ((inRange_iff hp _).2 ⟨k, k1, k2, rfl⟩) ((down_iff hv k1).1 (by simpa using hc))
  have hx : (∃ b' s', some b = some b' ∧ some s = some s' ∧ s' ≤ b') := ⟨b, s, rfl, rfl, by omega⟩
  rw [← hUn, ← hDn]
  constructor
  · intro h
    cases hi : findFirstTrueCondition 0 (topIndex prec) (matchPriceUp ov prec) with
    | none => right; left; rfl
    | some i =>
      cases hj : findFirstTrueCondition (topIndex prec) 0 (matchPriceDown ov prec) with
      | none => right; right; rfl
      | some j => rw [hi, hj] at h; cases h
  · rintro (h | h | h)
    · exact absurd hx h
    · rw [h]
    · rw [h]
      cases findFirstTrueCondition 0 (topIndex prec) (matchPriceUp ov prec) <;> rfl

/-- **C31** If some tick of the range has both buy and sell depth, the found price balances the book: there is depth on
both sides at it, the sells at or below it cover all buys at higher ticks, and the buys at or above it cover all sells at
lower ticks. -/
theorem C31_balances (ov : OrderView) (prec : Nat) (hv : MonotoneView ov) (hp : prec ≤ 18) (m t : Int)
    (hm : findMatchPrice ov prec = some m) (ht : InRange prec t)
    (hb : 0 < ov.buyAmountOver t true) (hs : 0 < ov.sellAmountUnder t true) :
    SellCovers ov prec m ∧ BuyCovers ov prec m := by
  obtain ⟨_, ti, tj, hi, hj, hr, h1, h2, _⟩ := C31_found ov prec hv hp m hm
  have hij : ti ≤ tj := by
    by_contra hc
    -- then the sells at the tick below `ti` vanish, and so do the buys at `ti`
    obtain ⟨i, i1, i2, rfl⟩ := (inRange_iff hp ti).1 hi.1
    obtain ⟨k, k1, k2, rfl⟩ := (inRange_iff hp t).1 ht
    have hj2 : ¬ BuyCovers ov prec (tickFromIndex i prec) := fun h => hc (hj.2.2 _ hi.1 h)
    have hpos : 0 < i := by
      obtain ⟨j, j1, j2, rfl⟩ := (inRange_iff hp tj).1 hj.1
      by_contra h0
      have : i = 0 := by omega
      subst this
      have := fromIndex_le (show (0:Int) ≤ 0 by omega) j1 prec
      omega
    have hprev := (inRange_iff hp (tickFromIndex (i-1) prec)).2 ⟨i-1, by omega, by omega, rfl⟩
    have hi2 : ¬ SellCovers ov prec (tickFromIndex (i-1) prec) := by
      intro h
      have h3 := hi.2.2 _ hprev h
      have := fromIndex_lt (show 0 ≤ i - 1 by omega) (show i - 1 < i by omega) prec
      omega
    have hn := isNext_fromIndex (show 0 ≤ i - 1 by omega) prec
    rw [show i - 1 + 1 = i by ring] at hn
    have hpv := isPrev_of_next hprev.1 hn
    have hS : ov.sellAmountUnder (tickFromIndex (i-1) prec) true = 0 ∨
        ov.sellAmountUnder (tickFromIndex (i-1) prec) true < ov.buyAmountOver (tickFromIndex i prec) true := by
      by_contra hcon
      push Not at hcon
      refine hi2 ⟨lt_of_le_of_ne (hv.sell_nonneg _ (le_of_lt (fromIndex_pos (by omega) prec))) (Ne.symm hcon.1), fun u hu => ?_⟩
      rw [next_unique hu hn]; exact hcon.2
    have hB : ov.buyAmountOver (tickFromIndex i prec) true = 0 ∨
        ov.buyAmountOver (tickFromIndex i prec) true < ov.sellAmountUnder (tickFromIndex (i-1) prec) true := by
      by_contra hcon
      push Not at hcon
      refine hj2 ⟨lt_of_le_of_ne (hv.buy_nonneg _ (fromIndex_pos i1 prec)) (Ne.symm hcon.1), fun u hu => ?_⟩
      rw [prev_unique hu hpv]; exact hcon.2
    have n1 := hv.sell_nonneg (tickFromIndex (i-1) prec) (le_of_lt (fromIndex_pos (by omega) prec))
    have n2 := hv.buy_nonneg (tickFromIndex i prec) (fromIndex_pos i1 prec)
    have hS0 : ov.sellAmountUnder (tickFromIndex (i-1) prec) true = 0 := by omega
    have hB0 : ov.buyAmountOver (tickFromIndex i prec) true = 0 := by omega
    rcases lt_or_ge k i with hk | hk
    · have := hv.sell_mono _ _ (le_of_lt (fromIndex_pos k1 prec)) (fromIndex_le k1 (show k ≤ i - 1 by omega) prec); omega
    · have := hv.buy_anti _ _ (fromIndex_pos i1 prec) (fromIndex_le i1 hk prec); omega
  have hlo : ti ≤ m := by omega
  have hhi : m ≤ tj := by omega
  have hti : 0 < ti := isTick_pos hi.1.1
  have hmp : 0 < m := by omega
  constructor
  · refine ⟨lt_of_lt_of_le hi.2.1.1 (hv.sell_mono _ _ (le_of_lt hti) hlo), fun u hu => ?_⟩
    -- the next tick of `ti` is at most the next tick of `m`
    have hn := isNext_up (isTick_pos hi.1.1) prec
    have h3 := hi.2.1.2 _ hn
    have h4 : upTick ti prec ≤ u := hn.2.2 u hu.1 (lt_of_le_of_lt hlo hu.2.1)
    exact le_trans (hv.buy_anti _ _ (isTick_pos hn.1) h4) (le_trans h3 (hv.sell_mono _ _ (le_of_lt hti) hlo))
  · refine ⟨lt_of_lt_of_le hj.2.1.1 (hv.buy_anti _ _ hmp hhi), fun u hu => ?_⟩
    have hup : 0 < u := isTick_pos hu.1
    have hpv := isPrev_down (show 1 < tj by have := hu.2.1; omega) prec
    have h3 := hj.2.1.2 _ hpv
    have h4 : u ≤ downTick tj prec := hpv.2.2 u hu.1 (lt_of_lt_of_le hu.2.1 hhi)
    exact le_trans (hv.sell_mono _ _ (le_of_lt hup) h4) (le_trans h3 (hv.buy_anti _ _ hmp hhi))

/-- **C31** If some tick of the range has both buy and sell depth, the best prices cross, and no buy lies above the range
and no sell below it, then a first match price is found. -/
theorem C31_exists (ov : OrderView) (prec : Nat) (hv : MonotoneView ov) (hp : prec ≤ 18) (t : Int)
    (hcross : ∃ b s, ov.highestBuyPrice = some b ∧ ov.lowestSellPrice = some s ∧ s ≤ b) (ht : InRange prec t)
    (hb : 0 < ov.buyAmountOver t true) (hs : 0 < ov.sellAmountUnder t true)
    (htop : ∀ p, highestTick prec < p → ov.buyAmountOver p true = 0)
    (hbot : ∀ p, p < lowestTick prec → ov.sellAmountUnder p true = 0) : ∃ m, findMatchPrice ov prec = some m := by
  rw [← Option.isSome_iff_exists, ← Option.ne_none_iff_isSome]
  rw [Ne, C31_not_found ov prec hv hp]
  rintro (h | h | h)
  · exact h hcross
  · refine h (highestTick prec) ⟨isTick_highest prec, le_of_lt (lowest_lt_highest hp), le_refl _⟩ ?_
    refine ⟨lt_of_lt_of_le hs (hv.sell_mono _ _ (le_of_lt (isTick_pos ht.1)) ht.2.2), fun u hu => ?_⟩
    rw [htop u hu.2.1]; exact hv.sell_nonneg _ (le_of_lt (isTick_pos (isTick_highest prec)))
  · refine h (lowestTick prec) ⟨isTick_lowest prec, le_refl _, le_of_lt (lowest_lt_highest hp)⟩ ?_
    refine ⟨lt_of_lt_of_le hb (hv.buy_anti _ _ (lowestTick_pos prec) ht.2.1), fun u hu => ?_⟩
    rw [hbot u hu.2.1]; exact hv.buy_nonneg _ (lowestTick_pos prec)

/-- **C31** The hypotheses are met by the view of every order book of live orders, and are preserved by combining views. -/
theorem C31_views_are_monotone (h : Heap) (ps : List Nat) (hl : ∀ p ∈ ps, Live (h p)) :
    MonotoneView (makeView h (newOrderBook h ps)).toView ∧
    ∀ vs : List OrderView, (∀ v ∈ vs, MonotoneView v) → MonotoneView (multipleOrderViews vs) := by
  obtain ⟨hv, _, _⟩ := view_ok h ps
  refine ⟨⟨fun p q _ hpq => buyOver_anti hv hpq, fun p q _ hpq => sellUnder_mono hv hpq,
    fun p _ => (buyOver_acc hv p true).nonneg, fun p _ => (sellUnder_acc hv p true).nonneg, ?_⟩, ?_⟩
  · change (makeView h (newOrderBook h ps)).sellAmountUnder 0 true = 0
    rw [(C28_depth h ps hl 0).2.2.1]
    unfold ownDepth
    have : ps.filter (fun p => decide ((h p).dir = .sell ∧ (h p).price ≤ 0)) = [] := by
      rw [List.filter_eq_nil_iff]
      intro p hpm
      have := (hl p hpm).price_pos
      simp; omega
    rw [this]; rfl
  · intro vs hvs
    have eB : ∀ p, (multipleOrderViews vs).buyAmountOver p true = (vs.map (fun v => v.buyAmountOver p true)).sum :=
      fun p => (C29_combined vs p true).1
    have eS : ∀ p, (multipleOrderViews vs).sellAmountUnder p true = (vs.map (fun v => v.sellAmountUnder p true)).sum :=
      fun p => (C29_combined vs p true).2.1
    refine ⟨fun p q hp hpq => ?_, fun p q hp hpq => ?_, fun p hp => ?_, fun p hp => ?_, ?_⟩
    · rw [eB, eB]; exact sum_map_le _ _ _ (fun v hv => (hvs v hv).buy_anti p q hp hpq)
    · rw [eS, eS]; exact sum_map_le _ _ _ (fun v hv => (hvs v hv).sell_mono p q hp hpq)
    · rw [eB]; exact sum_map_nonneg _ _ (fun v hv => (hvs v hv).buy_nonneg p hp)
    · rw [eS]; exact sum_map_nonneg _ _ (fun v hv => (hvs v hv).sell_nonneg p hp)
    · rw [eS]
      have := sum_map_congr (l := vs) (f := fun v => v.sellAmountUnder 0 true) (g := fun _ => 0)
        (fun v hv => (hvs v hv).sell_zero)
      rw [this]; simp

/-- Non-vacuity of C31: the witness book has a first match price, at a tick with depth on both sides. -/
example : findMatchPrice (makeView demoHeap (newOrderBook demoHeap [0, 1, 2, 4])).toView 3 = some 1100000000000000000 ∧
    0 < (makeView demoHeap (newOrderBook demoHeap [0, 1, 2, 4])).buyAmountOver 1100000000000000000 true ∧
    0 < (makeView demoHeap (newOrderBook demoHeap [0, 1, 2, 4])).sellAmountUnder 1100000000000000000 true := by
  decide +kernel

end Verif.Props

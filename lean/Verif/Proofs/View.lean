import Verif.Spec.View
import Verif.Proofs.TickIndex
import Verif.Proofs.MatchDepth
/-! Lemmas about views, first-true search and the first match price. -/
namespace Verif.Amm
open Verif Verif.Spec

theorem findFirst_up {lo hi : Int} (h : lo < hi) {f : Int → Bool}
    (hm : ∀ a b, lo ≤ a → a ≤ b → b ≤ hi → f a = true → f b = true) :
    (∀ i, findFirstTrueCondition lo hi f = some i ↔ (lo ≤ i ∧ i ≤ hi ∧ f i = true ∧ ∀ a, lo ≤ a → a < i → f a = false)) ∧
    (findFirstTrueCondition lo hi f = none ↔ ∀ a, lo ≤ a → a ≤ hi → f a = false) := by
  have hs := sortSearch_spec (hi - lo + 1).toNat (fun k => f (lo + k)) (by
    intro a b hab hb ha
    exact hm (lo + a) (lo + b) (by omega) (by omega) (by omega) ha)
  unfold findFirstTrueCondition
  simp only [if_pos h]
  generalize sortSearch (hi - lo + 1).toNat (fun k => f (lo + k)) = k at hs
  obtain ⟨h1, h2, h3⟩ := hs
  have h2' : ∀ a, lo ≤ a → a < lo + k → f a = false := by
    intro a ha hak
    have := h2 (a - lo).toNat (by omega)
    rwa [show lo + ((a - lo).toNat : Int) = a by omega] at this
  by_cases hk : lo + (k : Int) > hi
  · simp only [if_pos hk]
    refine ⟨fun i => ⟨fun he => by simp at he, fun ⟨a, b, c, d⟩ => ?_⟩, ⟨fun _ a ha hab => h2' a ha (by omega), fun _ => trivial⟩⟩
    rw [h2' i a (by omega)] at c; cases c
  · simp only [if_neg hk]
    have h3' : f (lo + k) = true := h3 k (le_refl _) (by omega)
    refine ⟨fun i => ⟨fun he => ?_, fun ⟨a, b, c, d⟩ => ?_⟩, ⟨fun he => by simp at he, fun he => ?_⟩⟩
    · cases he; exact ⟨by omega, by omega, h3', h2'⟩
    · congr 1
      rcases lt_trichotomy (lo + (k:Int)) i with hl | hl | hl
      · rw [d _ (by omega) hl] at h3'; cases h3'
      · exact hl
      · rw [h2' i a hl] at c; cases c
    · rw [he _ (by omega) (by omega)] at h3'; cases h3'

theorem findFirst_down {lo hi : Int} (h : lo ≤ hi) {f : Int → Bool}
    (hm : ∀ a b, lo ≤ a → a ≤ b → b ≤ hi → f b = true → f a = true) :
    (∀ i, findFirstTrueCondition hi lo f = some i ↔ (lo ≤ i ∧ i ≤ hi ∧ f i = true ∧ ∀ a, i < a → a ≤ hi → f a = false)) ∧
    (findFirstTrueCondition hi lo f = none ↔ ∀ a, lo ≤ a → a ≤ hi → f a = false) := by
  have hs := sortSearch_spec (hi - lo + 1).toNat (fun k => f (hi - k)) (by
    intro a b hab hb ha
    exact hm (hi - b) (hi - a) (by omega) (by omega) (by omega) ha)
  unfold findFirstTrueCondition
  simp only [if_neg (show ¬ hi < lo by omega)]
  generalize sortSearch (hi - lo + 1).toNat (fun k => f (hi - k)) = k at hs
  obtain ⟨h1, h2, h3⟩ := hs
  have h2' : ∀ a, hi - k < a → a ≤ hi → f a = false := by
    intro a ha hak
    have := h2 (hi - a).toNat (by omega)
    rwa [show hi - ((hi - a).toNat : Int) = a by omega] at this
  by_cases hk : hi - (k : Int) < lo
  · simp only [if_pos hk]
    refine ⟨fun i => ⟨fun he => by simp at he, fun ⟨a, b, c, d⟩ => ?_⟩, ⟨fun _ a ha hab => h2' a (by omega) hab, fun _ => trivial⟩⟩
    rw [h2' i (by omega) b] at c; cases c
  · simp only [if_neg hk]
    have h3' : f (hi - k) = true := h3 k (le_refl _) (by omega)
    refine ⟨fun i => ⟨fun he => ?_, fun ⟨a, b, c, d⟩ => ?_⟩, ⟨fun he => by simp at he, fun he => ?_⟩⟩
    · cases he; exact ⟨by omega, by omega, h3', h2'⟩
    · congr 1
      rcases lt_trichotomy (hi - (k:Int)) i with hl | hl | hl
      · rw [h2' i hl b] at c; cases c
      · exact hl
      · rw [d _ hl (by omega)] at h3'; cases h3'
    · rw [he _ (by omega) (by omega)] at h3'; cases h3'

/-! ## views of a book -/

theorem accSums_price (h : Heap) : ∀ (ts : List Tick) (a : Int), (accSums h ts a).map (·.price) = ts.map (·.price) := by
  intro ts
  induction ts with
  | nil => intro a; rfl
  | cons t ts ih => intro a; simp [accSums, ih]

theorem accSums_length (h : Heap) (ts : List Tick) (a : Int) : (accSums h ts a).length = ts.length := by
  have := congrArg List.length (accSums_price h ts a)
  simpa using this

/-- Own-price total of a list of ticks. -/
def ownTotal (h : Heap) (ts : List Tick) : Int := (ts.map (fun t => totalMatchable h t.orders t.price)).sum

theorem accSums_get (h : Heap) : ∀ (ts : List Tick) (a : Int) (i : Nat), i < ts.length →
    ∃ s, (accSums h ts a)[i]? = some s ∧ s.sum = a + ownTotal h (ts.take (i + 1)) := by
  intro ts
  induction ts with
  | nil => intro a i hi; simp at hi
  | cons t ts ih =>
    intro a i hi
    cases i with
    | zero => exact ⟨_, rfl, by simp [ownTotal]⟩
    | succ k =>
      obtain ⟨s, h1, h2⟩ := ih (a + totalMatchable h t.orders t.price) k (by simpa using hi)
      refine ⟨s, by simpa [accSums] using h1, ?_⟩
      rw [h2]; simp [ownTotal]; ring

theorem sumBefore_accSums (h : Heap) (ts : List Tick) (i : Nat) (hi : i ≤ ts.length) :
    sumBefore (accSums h ts 0) i = ownTotal h (ts.take i) := by
  unfold sumBefore
  split
  · rename_i he; subst he; simp [ownTotal]
  · obtain ⟨s, h1, h2⟩ := accSums_get h ts 0 (i - 1) (by omega)
    rw [h1]; simp only [Option.map_some, Option.getD_some, h2]
    rw [show i - 1 + 1 = i by omega]; ring

theorem searchList_map {α β : Type} (l : List α) (g : α → β) (p : β → Bool) :
    searchList l (fun a => p (g a)) = searchList (l.map g) p := by
  unfold searchList
  rw [List.length_map]
  congr 1
  funext j
  rw [List.getElem?_map]
  cases l[j]? <;> rfl

theorem searchAcc (h : Heap) (ts : List Tick) (a : Int) (p : Int → Bool) :
    searchList (accSums h ts a) (fun x => p x.price) = searchList ts (fun t => p t.price) := by
  rw [searchList_map _ (fun x : AccSum => x.price) p, searchList_map _ (fun x : Tick => x.price) p, accSums_price]

/-- Splitting at the boundary of a predicate equals filtering. -/
theorem take_eq_filter {α : Type} {l : List α} {p : α → Bool} {k : Nat} (h1 : ∀ a ∈ l.take k, p a = false)
    (h2 : ∀ a ∈ l.drop k, p a = true) : l.take k = l.filter (fun a => !p a) ∧ l.drop k = l.filter p := by
  conv => rhs; rw [← List.take_append_drop k l]
  conv => lhs; rhs; rw [← List.take_append_drop k l]
  rw [List.filter_append, List.filter_append]
  constructor
  · rw [List.filter_eq_self.2 (fun a ha => by simp [h1 a ha]), List.filter_eq_nil_iff.2 (fun a ha => by simp [h2 a ha])]
    simp
  · rw [List.filter_eq_self.2 h2, List.filter_eq_nil_iff.2 (fun a ha => by simp [h1 a ha])]
    simp

theorem ownTotal_flat {h : Heap} : ∀ {ts : List Tick}, (∀ t ∈ ts, ∀ p ∈ t.orders, (h p).price = t.price) →
    ownTotal h ts = ((ts.flatMap (·.orders)).map (fun p => matchableAmount (h p) (h p).price)).sum := by
  intro ts
  induction ts with
  | nil => intro _; rfl
  | cons t ts ih =>
    intro hp
    have i := ih (fun t' ht => hp t' (List.mem_cons_of_mem _ ht))
    unfold ownTotal at *
    rw [List.map_cons, List.sum_cons, i, List.flatMap_cons, List.map_append, List.sum_append]
    congr 1
    unfold totalMatchable
    rw [foldl_add_eq]
    rw [Int.zero_add]
    exact sum_map_congr (fun p hpm => by rw [hp t (by simp) p hpm])

theorem TicksOk.price_eq {inc : Bool} {h : Heap} {qs : List Nat} {ts : List Tick} (hk : TicksOk inc h qs ts) :
    ∀ t ∈ ts, ∀ p ∈ t.orders, (h p).price = t.price := by
  intro t ht p hp
  rw [hk.content t ht, List.mem_filter] at hp
  simpa using hp.2

/-- Depth of the filtered ticks of one side equals the depth over all orders. -/
theorem ownTotal_side {h : Heap} {ps : List Nat} {inc : Bool} {d : Dir} {ts : List Tick}
    (hk : TicksOk inc h (eligible h d ps) ts) (hl : ∀ p ∈ ps, Live (h p)) (q : Int → Prop) [DecidablePred q] :
    ownTotal h (ts.filter (fun t => decide (q t.price))) = ownDepth h ps d q := by
  rw [ownTotal_flat (fun t ht => hk.price_eq t (List.mem_of_mem_filter ht)),
    flat_filter (fun x => decide (q x)) hk.price_eq]
  rw [sum_perm _ (hk.perm.filter _)]
  unfold ownDepth eligible
  rw [List.filter_filter]
  have e : ps.filter (fun a => decide (q (h a).price) && (decide ((h a).dir = d) &&
      decide (0 < matchableAmount (h a) (h a).price))) =
      (ps.filter (fun p => decide ((h p).dir = d ∧ q (h p).price))).filter
        (fun p => decide (0 < matchableAmount (h p) (h p).price)) := by
    rw [List.filter_filter]
    apply List.filter_congr
    intro p _
    rw [Bool.eq_iff_iff]; simp; tauto
  rw [e]
  apply sum_filter_eq
  intro p hp hz
  have hpm := List.mem_of_mem_filter hp
  have := matchable_nonneg ((live_iff _).1 (hl p hpm)) (hl p hpm).price_pos
  have : ¬ 0 < matchableAmount (h p) (h p).price := by simpa using hz
  omega

/-- The accumulated sum before the cut is the total of the ticks before the cut. -/
theorem acc_cut {h : Heap} {inc : Bool} {ts : List Tick}
    (hs : ts.Pairwise (fun a b => priceBefore inc a.price b.price)) (c : Int → Bool)
    (hc : ∀ a b, priceBefore inc a b → c a = true → c b = true) :
    sumBefore (accSums h ts 0) (searchList (accSums h ts 0) (fun x => c x.price)) =
      ownTotal h (ts.filter (fun t => !c t.price)) ∧
    ownTotal h ts = ownTotal h (ts.filter (fun t => !c t.price)) + ownTotal h (ts.filter (fun t => c t.price)) := by
  rw [searchAcc]
  obtain ⟨h1, h2, h3⟩ := searchList_spec ts (fun t => c t.price) _ hs (fun a b hab ha => hc _ _ hab ha)
  rw [sumBefore_accSums h ts _ h1]
  obtain ⟨e1, e2⟩ := take_eq_filter (p := fun t : Tick => c t.price) h2 h3
  rw [← e1]
  refine ⟨rfl, ?_⟩
  rw [← e2]
  conv => lhs; rw [← List.take_append_drop (searchList ts (fun t => c t.price)) ts]
  unfold ownTotal
  rw [List.map_append, List.sum_append]

theorem acc_last (h : Heap) (ts : List Tick) (hn : ts ≠ []) :
    ∃ l, (accSums h ts 0).getLast? = some l ∧ l.sum = ownTotal h ts := by
  obtain ⟨s, h1, h2⟩ := accSums_get h ts 0 (ts.length - 1) (by have := List.length_pos_iff.2 hn; omega)
  have hlen := List.length_pos_iff.2 hn
  refine ⟨s, ?_, ?_⟩
  · rw [List.getLast?_eq_getElem?, accSums_length]; exact h1
  · rw [h2, show ts.length - 1 + 1 = ts.length by omega, List.take_length]; ring

/-! ## abstract sides of a view -/

/-- One side of a view: prices strictly ordered, sums non-negative and non-decreasing. -/
structure SideView (inc : Bool) (l : List AccSum) : Prop where
  sorted : l.Pairwise (fun a b => priceBefore inc a.price b.price ∧ a.sum ≤ b.sum)
  nonneg : ∀ a ∈ l, 0 ≤ a.sum

/-- `x` is the largest sum in front of the cut. -/
structure IsAcc (l : List AccSum) (c : Int → Bool) (x : Int) : Prop where
  nonneg : 0 ≤ x
  bound : ∀ a ∈ l, c a.price = false → a.sum ≤ x
  attained : x = 0 ∨ ∃ a ∈ l, c a.price = false ∧ x = a.sum

theorem IsAcc.unique {l : List AccSum} {c : Int → Bool} {x y : Int} (hx : IsAcc l c x) (hy : IsAcc l c y) : x = y := by
  apply le_antisymm
  · rcases hx.attained with h | ⟨a, ha, hc, rfl⟩
    · rw [h]; exact hy.nonneg
    · exact hy.bound a ha hc
  · rcases hy.attained with h | ⟨a, ha, hc, rfl⟩
    · rw [h]; exact hx.nonneg
    · exact hx.bound a ha hc

theorem sumBefore_spec {inc : Bool} {l : List AccSum} (hl : SideView inc l) {k : Nat} (hk : k ≤ l.length) :
    0 ≤ sumBefore l k ∧ (∀ a ∈ l.take k, a.sum ≤ sumBefore l k) ∧
    (sumBefore l k = 0 ∨ ∃ a ∈ l.take k, sumBefore l k = a.sum) := by
  unfold sumBefore
  split
  · rename_i he; subst he; simp
  · rename_i he
    rw [List.getElem?_eq_getElem (show k - 1 < l.length by omega)]
    simp only [Option.map_some, Option.getD_some]
    refine ⟨hl.nonneg _ (List.getElem_mem _), ?_, Or.inr ⟨_, ?_, rfl⟩⟩
    · intro a ha
      obtain ⟨i, hi, rfl⟩ := List.mem_iff_getElem.1 ha
      rw [List.length_take] at hi
      rw [List.getElem_take]
      rcases Nat.lt_or_eq_of_le (show i ≤ k - 1 by omega) with h | h
      · exact (List.pairwise_iff_getElem.1 hl.sorted i (k - 1) (by omega) (by omega) h).2
      · subst h; exact le_refl _
    · rw [List.mem_iff_getElem]
      exact ⟨k - 1, by rw [List.length_take]; omega, by rw [List.getElem_take]⟩

theorem sideView_acc {inc : Bool} {l : List AccSum} (hl : SideView inc l) (c : Int → Bool)
    (hc : ∀ a b, priceBefore inc a b → c a = true → c b = true) :
    IsAcc l c (sumBefore l (searchList l (fun x => c x.price))) := by
  obtain ⟨h1, h2, h3⟩ := searchList_spec l (fun x => c x.price) _ hl.sorted (fun a b hab ha => hc _ _ hab.1 ha)
  obtain ⟨g1, g2, g3⟩ := sumBefore_spec hl h1
  refine ⟨g1, ?_, ?_⟩
  · intro a ha hca
    apply g2
    rw [← List.take_append_drop (searchList l (fun x => c x.price)) l] at ha
    rcases List.mem_append.1 ha with ha | ha
    · exact ha
    · rw [h3 a ha] at hca; cases hca
  · rcases g3 with h | ⟨a, ha, e⟩
    · exact Or.inl h
    · exact Or.inr ⟨a, List.mem_of_mem_take ha, h2 a ha, e⟩

/-- Best price of a side: the first element with positive sum. -/
theorem best_spec {inc : Bool} {l : List AccSum} (hl : SideView inc l) :
    (∀ b, l[searchList l (fun a => decide (0 < a.sum))]?.map (·.price) = some b ↔
      (∃ a ∈ l, a.price = b ∧ 0 < a.sum) ∧ ∀ a ∈ l, 0 < a.sum → a.price = b ∨ priceBefore inc b a.price) ∧
    (l[searchList l (fun a => decide (0 < a.sum))]?.map (·.price) = none ↔ ∀ a ∈ l, a.sum = 0) := by
  obtain ⟨h1, h2, h3⟩ := searchList_spec l (fun a => decide (0 < a.sum)) _ hl.sorted
    (fun a b hab ha => by have := hab.2; simp at *; omega)
  generalize searchList l (fun a => decide (0 < a.sum)) = k at *
  have hirr : ∀ x : Int, ¬ priceBefore inc x x := by intro a; unfold priceBefore; cases inc <;> simp
  have hasym : ∀ x y : Int, priceBefore inc x y → ¬ priceBefore inc y x := by
    intro a b; unfold priceBefore; cases inc <;> simp <;> omega
  rcases Nat.lt_or_eq_of_le h1 with hk | hk
  · rw [List.getElem?_eq_getElem hk]
    have hpos : 0 < l[k].sum := by
      have := h3 l[k] (by rw [List.mem_iff_getElem]; exact ⟨0, by rw [List.length_drop]; omega, by simp⟩)
      simpa using this
    have hfirst : ∀ a ∈ l, 0 < a.sum → a.price = l[k].price ∨ priceBefore inc l[k].price a.price := by
      intro a ha hpa
      obtain ⟨i, hi, rfl⟩ := List.mem_iff_getElem.1 ha
      rcases lt_trichotomy i k with hik | hik | hik
      · have := h2 l[i] (by rw [List.mem_iff_getElem]; exact ⟨i, by rw [List.length_take]; omega, by rw [List.getElem_take]⟩)
        simp at this; omega
      · subst hik; exact Or.inl rfl
      · exact Or.inr (List.pairwise_iff_getElem.1 hl.sorted k i (by omega) (by omega) hik).1
    constructor
    · intro b
      simp only [Option.map_some, Option.some.injEq]
      constructor
      · rintro rfl; exact ⟨⟨_, List.getElem_mem _, rfl, hpos⟩, hfirst⟩
      · rintro ⟨⟨a, ha, rfl, hpa⟩, hb⟩
        rcases hfirst a ha hpa with h | h
        · exact h.symm
        · rcases hb _ (List.getElem_mem hk) hpos with h' | h'
          · exact h'
          · exact absurd h' (hasym _ _ h)
    · simp only [Option.map_some]
      constructor
      · intro h; cases h
      · intro h; have := h _ (List.getElem_mem hk); omega
  · have hnone : l[k]? = none := by rw [List.getElem?_eq_none_iff]; omega
    have hall : ∀ a ∈ l, a.sum = 0 := by
      intro a ha
      have := h2 a (by rw [hk, List.take_length]; exact ha)
      have := hl.nonneg a ha
      simp at *; omega
    rw [hnone]
    constructor
    · intro b
      simp only [Option.map_none]
      constructor
      · intro h; cases h
      · rintro ⟨⟨a, ha, _, hp⟩, _⟩; have := hall a ha; omega
    · simp only [Option.map_none, true_iff]; exact hall

/-! ## view matching -/

/-- A whole view. -/
structure ViewOk (v : OrderBookView) : Prop where
  buys : SideView false v.buys
  sells : SideView true v.sells

theorem buyOver_acc {v : OrderBookView} (hv : ViewOk v) (p : Int) (incl : Bool) :
    IsAcc v.buys (fun x => if incl then decide (x < p) else decide (x ≤ p)) (v.buyAmountOver p incl) := by
  have := sideView_acc hv.buys (fun x => if incl then decide (x < p) else decide (x ≤ p)) (by
    intro a b hab; unfold priceBefore at hab; cases incl <;> simp at * <;> omega)
  unfold OrderBookView.buyAmountOver
  convert this using 4

theorem sellUnder_acc {v : OrderBookView} (hv : ViewOk v) (p : Int) (incl : Bool) :
    IsAcc v.sells (fun x => if incl then decide (x > p) else decide (x ≥ p)) (v.sellAmountUnder p incl) := by
  have := sideView_acc hv.sells (fun x => if incl then decide (x > p) else decide (x ≥ p)) (by
    intro a b hab; unfold priceBefore at hab; cases incl <;> simp at * <;> omega)
  unfold OrderBookView.sellAmountUnder
  convert this using 4

theorem buyOver_anti {v : OrderBookView} (hv : ViewOk v) {p q : Int} (h : p ≤ q) :
    v.buyAmountOver q true ≤ v.buyAmountOver p true := by
  have a := buyOver_acc hv p true
  rcases (buyOver_acc hv q true).attained with e | ⟨x, hx, hc, e⟩
  · rw [e]; exact a.nonneg
  · rw [e]; exact a.bound x hx (by simp at *; omega)

theorem sellUnder_mono {v : OrderBookView} (hv : ViewOk v) {p q : Int} (h : p ≤ q) :
    v.sellAmountUnder p true ≤ v.sellAmountUnder q true := by
  have a := sellUnder_acc hv q true
  rcases (sellUnder_acc hv p true).attained with e | ⟨x, hx, hc, e⟩
  · rw [e]; exact a.nonneg
  · rw [e]; exact a.bound x hx (by simp at *; omega)

theorem side_sum_le {inc : Bool} {l : List AccSum} (hl : SideView inc l) {a b : AccSum} (ha : a ∈ l) (hb : b ∈ l)
    (h : ¬ priceBefore inc b.price a.price) : a.sum ≤ b.sum := by
  obtain ⟨i, hi, rfl⟩ := List.mem_iff_getElem.1 ha
  obtain ⟨j, hj, rfl⟩ := List.mem_iff_getElem.1 hb
  rcases lt_trichotomy i j with hij | hij | hij
  · exact (List.pairwise_iff_getElem.1 hl.sorted i j hi hj hij).2
  · subst hij; exact le_refl _
  · exact absurd (List.pairwise_iff_getElem.1 hl.sorted j i hj hi hij).1 h

theorem buyOver_self {v : OrderBookView} (hv : ViewOk v) {a : AccSum} (ha : a ∈ v.buys) :
    v.buyAmountOver a.price true = a.sum := by
  have h := buyOver_acc hv a.price true
  apply le_antisymm
  · rcases h.attained with e | ⟨x, hx, hc, e⟩
    · rw [e]; exact hv.buys.nonneg a ha
    · rw [e]; exact side_sum_le hv.buys hx ha (by unfold priceBefore; simp at *; omega)
  · exact h.bound a ha (by simp)

theorem sellUnder_self {v : OrderBookView} (hv : ViewOk v) {a : AccSum} (ha : a ∈ v.sells) :
    v.sellAmountUnder a.price true = a.sum := by
  have h := sellUnder_acc hv a.price true
  apply le_antisymm
  · rcases h.attained with e | ⟨x, hx, hc, e⟩
    · rw [e]; exact hv.sells.nonneg a ha
    · rw [e]; exact side_sum_le hv.sells hx ha (by unfold priceBefore; simp at *; omega)
  · exact h.bound a ha (by simp)

theorem _root_.Verif.Spec.IsBestMatch.unique {v : OrderBookView} {m n : Int} (hm : IsBestMatch v m) (hn : IsBestMatch v n) : m = n := by
  apply le_antisymm
  · rcases hm.attained with h | ⟨p, h⟩
    · rw [h]; exact hn.nonneg
    · rw [h]; exact hn.bound p
  · rcases hn.attained with h | ⟨p, h⟩
    · rw [h]; exact hm.nonneg
    · rw [h]; exact hm.bound p

/-- Reduce all sums of a side by `m`, stopping at zero. -/
def cutSums (l : List AccSum) (m : Int) : List AccSum := l.map (fun a => { a with sum := max 0 (a.sum - m) })

theorem reduceSums_eq {l : List AccSum} {k : Nat} {m : Int} (h1 : ∀ a ∈ l.take k, a.sum ≤ m)
    (h2 : ∀ a ∈ l.drop k, m ≤ a.sum) : reduceSums l k m = cutSums l m := by
  unfold reduceSums cutSums
  apply List.ext_getElem
  · simp
  intro i hi hi'
  simp only [List.length_mapIdx] at hi
  simp only [List.getElem_mapIdx, List.getElem_map]
  congr 1
  split
  · rename_i hik
    have := h1 l[i] (by rw [List.mem_iff_getElem]; exact ⟨i, by rw [List.length_take]; omega, by rw [List.getElem_take]⟩)
    omega
  · rename_i hik
    have := h2 l[i] (by
      rw [List.mem_iff_getElem]
      exact ⟨i - k, by rw [List.length_drop]; omega, by rw [List.getElem_drop]; congr 1; omega⟩)
    omega

theorem sideView_cut {inc : Bool} {l : List AccSum} (hl : SideView inc l) (m : Int) : SideView inc (cutSums l m) := by
  constructor
  · unfold cutSums
    rw [List.pairwise_map]
    exact hl.sorted.imp (fun h => ⟨h.1, by simp only; omega⟩)
  · intro a ha
    unfold cutSums at ha
    obtain ⟨b, _, rfl⟩ := List.mem_map.1 ha
    simp

theorem isAcc_cut {l : List AccSum} {c : Int → Bool} {x m : Int} (hm : 0 ≤ m) (h : IsAcc l c x) :
    IsAcc (cutSums l m) c (max 0 (x - m)) := by
  constructor
  · omega
  · intro a ha hc
    unfold cutSums at ha
    obtain ⟨b, hb, rfl⟩ := List.mem_map.1 ha
    have := h.bound b hb hc
    simp only; omega
  · rcases h.attained with e | ⟨a, ha, hc, e⟩
    · left; omega
    · right; exact ⟨_, List.mem_map.2 ⟨a, ha, rfl⟩, hc, by simp only; rw [e]⟩

/-- All of one side is matched. -/
theorem match_core {v : OrderBookView} (hv : ViewOk v) :
    let bi := searchList v.buys (fun a => v.buyAmountOver a.price true > v.sellAmountUnder a.price true)
    let si := searchList v.sells (fun a => v.sellAmountUnder a.price true > v.buyAmountOver a.price true)
    let m := max (sumBefore v.buys bi) (sumBefore v.sells si)
    IsBestMatch v m ∧ reduceSums v.buys bi m = cutSums v.buys m ∧ reduceSums v.sells si m = cutSums v.sells m ∧
    (bi = v.buys.length → ∀ a ∈ v.buys, a.sum ≤ m ∧ v.buyAmountOver a.price true ≤ v.sellAmountUnder a.price true) ∧
    (si = v.sells.length → ∀ a ∈ v.sells, a.sum ≤ m ∧ v.sellAmountUnder a.price true ≤ v.buyAmountOver a.price true) ∧
    (bi ≠ v.buys.length → ∃ a ∈ v.buys, v.sellAmountUnder a.price true < v.buyAmountOver a.price true) ∧
    (si ≠ v.sells.length → ∃ a ∈ v.sells, v.buyAmountOver a.price true < v.sellAmountUnder a.price true) := by
  intro bi si m
  obtain ⟨b1, b2, b3⟩ := searchList_spec v.buys
    (fun a => decide (v.buyAmountOver a.price true > v.sellAmountUnder a.price true)) _ hv.buys.sorted (by
      intro a b hab ha
      have hp : b.price ≤ a.price := by have := hab.1; unfold priceBefore at this; simp at this; omega
      have := buyOver_anti hv hp
      have := sellUnder_mono hv hp
      simp at *; omega)
  obtain ⟨s1, s2, s3⟩ := searchList_spec v.sells
    (fun a => decide (v.sellAmountUnder a.price true > v.buyAmountOver a.price true)) _ hv.sells.sorted (by
      intro a b hab ha
      have hp : a.price ≤ b.price := by have := hab.1; unfold priceBefore at this; simp at this; omega
      have := buyOver_anti hv hp
      have := sellUnder_mono hv hp
      simp at *; omega)
  change bi ≤ _ at b1
  change ∀ a ∈ v.buys.take bi, _ at b2
  change ∀ a ∈ v.buys.drop bi, _ at b3
  change si ≤ _ at s1
  change ∀ a ∈ v.sells.take si, _ at s2
  change ∀ a ∈ v.sells.drop si, _ at s3
  obtain ⟨x1, x2, x3⟩ := sumBefore_spec hv.buys b1
  obtain ⟨y1, y2, y3⟩ := sumBefore_spec hv.sells s1
  have hbT : ∀ a ∈ v.buys.take bi, a.sum ≤ v.sellAmountUnder a.price true := by
    intro a ha
    have := b2 a ha
    rw [← buyOver_self hv (List.mem_of_mem_take ha)]
    simpa using this
  have hsT : ∀ a ∈ v.sells.take si, a.sum ≤ v.buyAmountOver a.price true := by
    intro a ha
    have := s2 a ha
    rw [← sellUnder_self hv (List.mem_of_mem_take ha)]
    simpa using this
  have hbD : ∀ a ∈ v.buys.drop bi, v.sellAmountUnder a.price true < a.sum := by
    intro a ha
    have := b3 a ha
    rw [← buyOver_self hv (List.mem_of_mem_drop ha)]
    simpa using this
  have hsD : ∀ a ∈ v.sells.drop si, v.buyAmountOver a.price true < a.sum := by
    intro a ha
    have := s3 a ha
    rw [← sellUnder_self hv (List.mem_of_mem_drop ha)]
    simpa using this
  have hbmem : ∀ a ∈ v.buys, a.sum ≤ v.sellAmountUnder a.price true → a ∈ v.buys.take bi := by
    intro a ha hle
    rw [← List.take_append_drop bi v.buys] at ha
    rcases List.mem_append.1 ha with h | h
    · exact h
    · have := hbD a h; omega
  have hsmem : ∀ a ∈ v.sells, a.sum ≤ v.buyAmountOver a.price true → a ∈ v.sells.take si := by
    intro a ha hle
    rw [← List.take_append_drop si v.sells] at ha
    rcases List.mem_append.1 ha with h | h
    · exact h
    · have := hsD a h; omega
  have hm : m = max (sumBefore v.buys bi) (sumBefore v.sells si) := rfl
  have hbest : IsBestMatch v m := by
    refine ⟨by omega, ?_, ?_⟩
    · intro p
      rcases (buyOver_acc hv p true).attained with e | ⟨b, hb, hbc, e⟩
      · rw [e]; omega
      rcases (sellUnder_acc hv p true).attained with e' | ⟨s, hs, hsc, e'⟩
      · rw [e']; omega
      simp at hbc hsc
      rw [e, e']
      by_cases hle : b.sum ≤ s.sum
      · have h1 := sellUnder_mono hv (show s.price ≤ b.price by omega)
        rw [sellUnder_self hv hs] at h1
        have := x2 b (hbmem b hb (by omega))
        omega
      · have h1 := buyOver_anti hv (show s.price ≤ b.price by omega)
        rw [buyOver_self hv hb] at h1
        have := y2 s (hsmem s hs (by omega))
        omega
    · rcases le_total (sumBefore v.buys bi) (sumBefore v.sells si) with hle | hle
      · rcases y3 with e | ⟨a, ha, e⟩
        · left; omega
        · right
          refine ⟨a.price, ?_⟩
          have h1 := hsT a ha
          rw [sellUnder_self hv (List.mem_of_mem_take ha)]; omega
      · rcases x3 with e | ⟨a, ha, e⟩
        · left; omega
        · right
          refine ⟨a.price, ?_⟩
          have h1 := hbT a ha
          rw [buyOver_self hv (List.mem_of_mem_take ha)]; omega
  refine ⟨hbest, ?_, ?_, ?_, ?_, ?_, ?_⟩
  · apply reduceSums_eq
    · intro a ha; have := x2 a ha; omega
    · intro a ha
      have h1 := hbD a ha
      rcases hbest.attained with e | ⟨p, e⟩
      · rw [e]; exact hv.buys.nonneg a (List.mem_of_mem_drop ha)
      · rw [e]
        rcases le_total p a.price with hp | hp
        · have := sellUnder_mono hv hp; omega
        · have := buyOver_anti hv hp
          rw [buyOver_self hv (List.mem_of_mem_drop ha)] at this; omega
  · apply reduceSums_eq
    · intro a ha; have := y2 a ha; omega
    · intro a ha
      have h1 := hsD a ha
      rcases hbest.attained with e | ⟨p, e⟩
      · rw [e]; exact hv.sells.nonneg a (List.mem_of_mem_drop ha)
      · rw [e]
        rcases le_total a.price p with hp | hp
        · have := buyOver_anti hv hp; omega
        · have := sellUnder_mono hv hp
          rw [sellUnder_self hv (List.mem_of_mem_drop ha)] at this; omega
  · intro he a ha
    have hat : a ∈ v.buys.take bi := by rw [he, List.take_length]; exact ha
    refine ⟨by have := x2 a hat; omega, ?_⟩
    rw [buyOver_self hv ha]; exact hbT a hat
  · intro he a ha
    have hat : a ∈ v.sells.take si := by rw [he, List.take_length]; exact ha
    refine ⟨by have := y2 a hat; omega, ?_⟩
    rw [sellUnder_self hv ha]; exact hsT a hat
  · intro hne
    have hlt : bi < v.buys.length := by omega
    have hd : v.buys[bi] ∈ v.buys.drop bi := by
      rw [List.mem_iff_getElem]; exact ⟨0, by rw [List.length_drop]; omega, by simp⟩
    exact ⟨_, List.getElem_mem hlt, by rw [buyOver_self hv (List.getElem_mem hlt)]; exact hbD _ hd⟩
  · intro hne
    have hlt : si < v.sells.length := by omega
    have hd : v.sells[si] ∈ v.sells.drop si := by
      rw [List.mem_iff_getElem]; exact ⟨0, by rw [List.length_drop]; omega, by simp⟩
    exact ⟨_, List.getElem_mem hlt, by rw [sellUnder_self hv (List.getElem_mem hlt)]; exact hsD _ hd⟩

theorem cutSums_zero {inc : Bool} {l : List AccSum} (hl : SideView inc l) : cutSums l 0 = l := by
  unfold cutSums
  conv => rhs; rw [← List.map_id l]
  apply List.map_congr_left
  intro a ha
  have := hl.nonneg a ha
  cases a; simp at *; exact this

theorem match_spec {v : OrderBookView} (hv : ViewOk v) {m : Int} (hm : IsBestMatch v m)
    (hc : (∃ p, m < v.buyAmountOver p true) ∨ (∃ p, m < v.sellAmountUnder p true) ∨ m = 0) :
    v.match = { buys := cutSums v.buys m, sells := cutSums v.sells m } := by
  obtain ⟨c1, c2, c3, c4, c5, _, _⟩ := match_core hv
  have hident : m = 0 → v = { buys := cutSums v.buys m, sells := cutSums v.sells m } := by
    rintro rfl; rw [cutSums_zero hv.buys, cutSums_zero hv.sells]
  unfold OrderBookView.match
  split
  · rename_i he
    apply hident
    rcases hm.attained with e | ⟨p, e⟩
    · exact e
    · rcases he with he | he
      · have hn := List.length_eq_zero_iff.1 he
        rcases (buyOver_acc hv p true).attained with e' | ⟨a, ha, _⟩
        · have := (sellUnder_acc hv p true).nonneg; omega
        · rw [hn] at ha; cases ha
      · have hn := List.length_eq_zero_iff.1 he
        rcases (sellUnder_acc hv p true).attained with e' | ⟨a, ha, _⟩
        · have := (buyOver_acc hv p true).nonneg; omega
        · rw [hn] at ha; cases ha
  · simp only
    split
    · rename_i hb
      apply hident
      have e := hm.unique c1
      have c4' := c4 hb.1
      have c5' := c5 hb.2
      rw [← e] at c4' c5'
      rcases hc with ⟨p, hp⟩ | ⟨p, hp⟩ | hz
      · rcases (buyOver_acc hv p true).attained with e' | ⟨a, ha, _, e'⟩
        · have := hm.nonneg; omega
        · have := (c4' a ha).1; omega
      · rcases (sellUnder_acc hv p true).attained with e' | ⟨a, ha, _, e'⟩
        · have := hm.nonneg; omega
        · have := (c5' a ha).1; omega
      · exact hz
    · have hmm : ∀ bi si : Nat, 0 ≤ sumBefore v.buys bi →
        (if 0 < si then max (if 0 < bi then sumBefore v.buys bi else 0) (sumBefore v.sells si)
          else (if 0 < bi then sumBefore v.buys bi else 0)) = max (sumBefore v.buys bi) (sumBefore v.sells si) := by
        intro bi si h0
        have hz : ∀ l, sumBefore l 0 = 0 := fun l => by simp [sumBefore]
        rcases Nat.eq_zero_or_pos bi with hb | hb <;> rcases Nat.eq_zero_or_pos si with hs | hs
        · subst hb hs; simp [hz]
        · subst hb; simp [hz, hs]
        · subst hs; simp [hz, hb]; simpa using h0
        · simp [hb, hs]
      have hbl := (searchList_spec v.buys
        (fun a => decide (v.buyAmountOver a.price true > v.sellAmountUnder a.price true)) _ hv.buys.sorted (by
        intro a b hab ha
        have hp : b.price ≤ a.price := by have := hab.1; unfold priceBefore at this; simp at this; omega
        have := buyOver_anti hv hp
        have := sellUnder_mono hv hp
        simp at *; omega)).1
      rw [hmm _ _ (sumBefore_spec hv.buys hbl).1]
      rw [hm.unique c1, c2, c3]

/-- Strictly growing sums on a side (every tick has a positive amount). -/
def StrictSide (l : List AccSum) : Prop := l.Pairwise (fun a b => a.sum < b.sum)

theorem strict_before {inc : Bool} {l : List AccSum} (hl : SideView inc l) (hs : StrictSide l) {a b : AccSum} (ha : a ∈ l)
    (hb : b ∈ l) (h : a.sum ≤ b.sum) : a.price = b.price ∨ priceBefore inc a.price b.price := by
  obtain ⟨i, hi, rfl⟩ := List.mem_iff_getElem.1 ha
  obtain ⟨j, hj, rfl⟩ := List.mem_iff_getElem.1 hb
  rcases lt_trichotomy i j with hij | hij | hij
  · exact Or.inr (List.pairwise_iff_getElem.1 hl.sorted i j hi hj hij).1
  · subst hij; exact Or.inl rfl
  · have := List.pairwise_iff_getElem.1 hs j i hj hi hij; omega

theorem match_balanced {v : OrderBookView} (hv : ViewOk v) (hsb : StrictSide v.buys) (hss : StrictSide v.sells) {m : Int}
    (hm : IsBestMatch v m) (h0 : 0 < m) (hB : ∀ p, v.buyAmountOver p true ≤ m) (hS : ∀ p, v.sellAmountUnder p true ≤ m) :
    v.match = v := by
  obtain ⟨c1, c2, c3, c4, c5, c6, c7⟩ := match_core hv
  unfold OrderBookView.match
  split
  · rfl
  · simp only
    rw [if_pos]
    rcases hm.attained with e | ⟨p, e⟩
    · omega
    have hBp : v.buyAmountOver p true = m := by have := hB p; omega
    have hSp : v.sellAmountUnder p true = m := by have := hS p; omega
    constructor
    · by_contra hne
      obtain ⟨a, ha, hlt⟩ := c6 hne
      rcases (buyOver_acc hv p true).attained with e' | ⟨b, hb, hbc, e'⟩
      · omega
      have h1 := hB a.price
      rw [buyOver_self hv ha] at h1 hlt
      have := strict_before hv.buys hsb ha hb (by omega)
      have hp : p ≤ a.price := by unfold priceBefore at this; simp at this hbc; omega
      have := sellUnder_mono hv hp
      omega
    · by_contra hne
      obtain ⟨a, ha, hlt⟩ := c7 hne
      rcases (sellUnder_acc hv p true).attained with e' | ⟨b, hb, hbc, e'⟩
      · omega
      have h1 := hS a.price
      rw [sellUnder_self hv ha] at h1 hlt
      have := strict_before hv.sells hss ha hb (by omega)
      have hp : a.price ≤ p := by unfold priceBefore at this; simp at this hbc; omega
      have := buyOver_anti hv hp
      omega

/-! ## the view of a book is well formed -/

theorem accSums_pairwise {h : Heap} {inc : Bool} : ∀ {ts : List Tick} (a : Int),
    ts.Pairwise (fun a b => priceBefore inc a.price b.price) → (∀ t ∈ ts, 0 < totalMatchable h t.orders t.price) → 0 ≤ a →
    (accSums h ts a).Pairwise (fun x y => priceBefore inc x.price y.price ∧ x.sum < y.sum) ∧
    ∀ x ∈ accSums h ts a, a < x.sum ∧ ∃ t ∈ ts, t.price = x.price := by
  intro ts
  induction ts with
  | nil => intro a _ _ _; simp [accSums]
  | cons t ts ih =>
    intro a hs hp h0
    rw [List.pairwise_cons] at hs
    have ht := hp t (by simp)
    obtain ⟨i1, i2⟩ := ih (a + totalMatchable h t.orders t.price) hs.2 (fun t' h' => hp t' (by simp [h'])) (by omega)
    simp only [accSums]
    constructor
    · rw [List.pairwise_cons]
      refine ⟨?_, i1⟩
      intro x hx
      obtain ⟨j1, t', ht', e⟩ := i2 x hx
      exact ⟨by rw [← e]; exact hs.1 t' ht', j1⟩
    · intro x hx
      rcases List.mem_cons.1 hx with rfl | hx
      · exact ⟨by simp only; omega, t, by simp, rfl⟩
      · obtain ⟨j1, t', ht', e⟩ := i2 x hx
        exact ⟨by omega, t', by simp [ht'], e⟩

theorem TicksOk.total_pos {inc : Bool} {h : Heap} {d : Dir} {ps : List Nat} {ts : List Tick}
    (hk : TicksOk inc h (eligible h d ps) ts) : ∀ t ∈ ts, 0 < totalMatchable h t.orders t.price := by
  intro t ht
  unfold totalMatchable
  rw [foldl_add_eq, Int.zero_add]
  have hpos : ∀ p ∈ t.orders, 0 < matchableAmount (h p) t.price := by
    intro p hp
    have he := hk.price_eq t ht p hp
    rw [hk.content t ht, List.mem_filter] at hp
    have := hp.1
    unfold eligible at this
    rw [List.mem_filter] at this
    simp only [Bool.and_eq_true, decide_eq_true_eq] at this
    rw [← he]; exact this.2.2
  have hn := hk.nonempty t ht
  cases ho : t.orders with
  | nil => exact absurd ho hn
  | cons p ps' =>
    rw [ho] at hpos
    rw [List.map_cons, List.sum_cons]
    have h1 := hpos p (by simp)
    have h2 := sum_map_nonneg (fun q => matchableAmount (h q) t.price) ps' (fun q hq => le_of_lt (hpos q (by simp [hq])))
    omega

theorem view_ok (h : Heap) (ps : List Nat) :
    ViewOk (makeView h (newOrderBook h ps)) ∧ StrictSide (makeView h (newOrderBook h ps)).buys ∧
    StrictSide (makeView h (newOrderBook h ps)).sells := by
  have hk := bookOk_new h ps
  obtain ⟨b1, b2⟩ := accSums_pairwise 0 hk.buys.sorted hk.buys.total_pos (le_refl _)
  obtain ⟨s1, s2⟩ := accSums_pairwise 0 hk.sells.sorted hk.sells.total_pos (le_refl _)
  refine ⟨⟨⟨b1.imp (fun h => ⟨h.1, le_of_lt h.2⟩), fun a ha => le_of_lt (b2 a ha).1⟩,
    ⟨s1.imp (fun h => ⟨h.1, le_of_lt h.2⟩), fun a ha => le_of_lt (s2 a ha).1⟩⟩, b1.imp (fun h => h.2), s1.imp (fun h => h.2)⟩

theorem match_view_ok {v : OrderBookView} (hv : ViewOk v) (m : Int) :
    ViewOk { buys := cutSums v.buys m, sells := cutSums v.sells m } :=
  ⟨sideView_cut hv.buys m, sideView_cut hv.sells m⟩

theorem best_exists {v : OrderBookView} (hv : ViewOk v) : ∃ m, IsBestMatch v m := ⟨_, (match_core hv).1⟩

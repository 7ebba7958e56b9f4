import Verif.Proofs.Basic
import Verif.Model.OrderBook
/-! Order book structure (x/dex/amm/orderbook.go). -/
namespace Verif.Amm
open Verif

/-- Strict price order of the ticks of a side. -/
def priceBefore (increasing : Bool) (a b : Int) : Prop := if increasing then a < b else b < a

theorem priceBefore_trans {inc : Bool} {a b c : Int} (h1 : priceBefore inc a b) (h2 : priceBefore inc b c) :
    priceBefore inc a c := by
  unfold priceBefore at *; cases inc <;> simp at * <;> omega

/-- The ticks of one side hold exactly the orders `qs`, by price, in arrival order. -/
structure TicksOk (inc : Bool) (h : Heap) (qs : List Nat) (ts : List Tick) : Prop where
  sorted : ts.Pairwise (fun a b => priceBefore inc a.price b.price)
  content : ∀ t ∈ ts, t.orders = qs.filter (fun p => (h p).price == t.price)
  nonempty : ∀ t ∈ ts, t.orders ≠ []
  complete : ∀ p ∈ qs, ∃ t ∈ ts, t.price = (h p).price

theorem findPrice_spec {inc : Bool} {ts : List Tick} (hs : ts.Pairwise (fun a b => priceBefore inc a.price b.price))
    (price : Int) : ∃ k ex, findPrice inc ts price = (k, ex) ∧ k ≤ ts.length ∧
      (∀ t ∈ ts.take k, priceBefore inc t.price price) ∧
      (ex = true → ∃ t, ts[k]? = some t ∧ t.price = price) ∧
      (ex = false → ∀ t ∈ ts.drop k, priceBefore inc price t.price) := by
  have hspec := searchList_spec ts (pricePred inc price) _ hs (by
    intro a b hab ha
    unfold pricePred priceBefore at *
    cases inc <;> simp at * <;> omega)
  simp only at hspec
  obtain ⟨h1, h2, h3⟩ := hspec
  unfold findPrice
  simp only
  generalize searchList ts (pricePred inc price) = k at *
  have hbef : ∀ t ∈ ts.take k, priceBefore inc t.price price := by
    intro t ht
    have := h2 t ht
    unfold pricePred priceBefore at *
    cases inc <;> simp at * <;> omega
  cases hk : ts[k]? with
  | none =>
    refine ⟨k, false, rfl, h1, hbef, by simp, ?_⟩
    intro _ t ht
    rw [List.getElem?_eq_none_iff] at hk
    rw [List.drop_eq_nil_of_le hk] at ht; cases ht
  | some t0 =>
    refine ⟨k, t0.price == price, rfl, h1, hbef, ?_, ?_⟩
    · intro he; exact ⟨t0, hk, by simpa using he⟩
    · intro he t ht
      have hlt : k < ts.length := by
        by_contra hc
        rw [List.getElem?_eq_none (by omega)] at hk; cases hk
      have e0 : ts[k] = t0 := by rw [List.getElem?_eq_getElem hlt] at hk; simpa using hk
      have hd := List.drop_eq_getElem_cons hlt
      have ht0 := h3 t0 (by rw [hd, e0]; simp)
      have hne : t0.price ≠ price := by simpa using he
      have hb0 : priceBefore inc price t0.price := by
        unfold pricePred at ht0; unfold priceBefore
        cases inc <;> simp at * <;> omega
      rw [hd, e0] at ht
      rcases List.mem_cons.1 ht with rfl | ht
      · exact hb0
      · have hs2 := hs
        rw [← List.take_append_drop k ts, List.pairwise_append] at hs2
        have hs3 := hs2.2.1
        rw [hd, e0, List.pairwise_cons] at hs3
        exact priceBefore_trans hb0 (hs3.1 t ht)

theorem ticksOk_add {inc : Bool} {h : Heap} {qs : List Nat} {ts : List Tick} (hk : TicksOk inc h qs ts) (p : Nat) :
    TicksOk inc h (qs ++ [p]) (addOrderTicks inc h ts p) := by
  obtain ⟨k, ex, hf, hkl, hbef, hex, hnex⟩ := findPrice_spec hk.sorted (h p).price
  unfold addOrderTicks
  rw [hf]
  have hirr : ∀ a : Int, ¬ priceBefore inc a a := by intro a; unfold priceBefore; cases inc <;> simp
  cases ex with
  | true =>
    simp only
    obtain ⟨t0, ht0, hpe⟩ := hex rfl
    have hlt : k < ts.length := by
      by_contra hc
      rw [List.getElem?_eq_none (by omega)] at ht0; cases ht0
    have e0 : ts[k] = t0 := by rw [List.getElem?_eq_getElem hlt] at ht0; simpa using ht0
    rw [List.modify_eq_take_cons_drop hlt, e0]
    have hsplit : ts = ts.take k ++ t0 :: ts.drop (k + 1) := by
      conv_lhs => rw [← List.take_append_drop k ts, List.drop_eq_getElem_cons hlt, e0]
    have hmem0 : t0 ∈ ts := by rw [hsplit]; simp
    have hs := hk.sorted
    rw [hsplit, List.pairwise_append, List.pairwise_cons] at hs
    have hother : ∀ t ∈ ts.take k ++ ts.drop (k + 1), t ∈ ts ∧ t.price ≠ (h p).price := by
      intro t ht
      rcases List.mem_append.1 ht with ht | ht
      · refine ⟨List.mem_of_mem_take ht, fun e => hirr t.price ?_⟩
        have := hbef t ht; rwa [← e] at this
      · refine ⟨List.mem_of_mem_drop ht, fun e => hirr t.price ?_⟩
        have := hs.2.1.1 t ht
        rw [hpe] at this; rwa [← e] at this
    have hcases : ∀ t, t ∈ ts.take k ++ { t0 with orders := t0.orders ++ [p] } :: ts.drop (k + 1) →
        t = { t0 with orders := t0.orders ++ [p] } ∨ (t ∈ ts ∧ t.price ≠ (h p).price) := by
      intro t ht
      rcases List.mem_append.1 ht with ht | ht
      · exact Or.inr (hother t (List.mem_append_left _ ht))
      · rcases List.mem_cons.1 ht with rfl | ht
        · exact Or.inl rfl
        · exact Or.inr (hother t (List.mem_append_right _ ht))
    refine ⟨?_, ?_, ?_, ?_⟩
    · rw [List.pairwise_append, List.pairwise_cons]
      refine ⟨hs.1, ⟨hs.2.1.1, hs.2.1.2⟩, ?_⟩
      intro a ha b hb
      rcases List.mem_cons.1 hb with rfl | hb
      · exact hs.2.2 a ha t0 (by simp)
      · exact hs.2.2 a ha b (by simp [hb])
    · intro t ht
      rcases hcases t ht with rfl | ⟨h1, h2⟩
      · simp only
        rw [List.filter_append, ← hk.content t0 hmem0]
        simp [hpe]
      · rw [List.filter_append, ← hk.content t h1]
        simp [Ne.symm h2]
    · intro t ht
      rcases hcases t ht with rfl | ⟨h1, h2⟩
      · simp
      · exact hk.nonempty t h1
    · intro q hq
      rcases List.mem_append.1 hq with hq | hq
      · obtain ⟨t, ht, e⟩ := hk.complete q hq
        rw [hsplit] at ht
        rcases List.mem_append.1 ht with ht | ht
        · exact ⟨t, List.mem_append_left _ ht, e⟩
        · rcases List.mem_cons.1 ht with rfl | ht
          · exact ⟨_, List.mem_append_right _ List.mem_cons_self, e⟩
          · exact ⟨t, List.mem_append_right _ (List.mem_cons_of_mem _ ht), e⟩
      · simp at hq; subst hq
        exact ⟨_, List.mem_append_right _ List.mem_cons_self, hpe⟩
  | false =>
    simp only
    have haft := hnex rfl
    have hno : ∀ t ∈ ts, t.price ≠ (h p).price := by
      intro t ht e
      rw [← List.take_append_drop k ts] at ht
      rcases List.mem_append.1 ht with ht | ht
      · have := hbef t ht; rw [e] at this; exact hirr _ this
      · have := haft t ht; rw [e] at this; exact hirr _ this
    refine ⟨?_, ?_, ?_, ?_⟩
    · exact pairwise_insert k hk.sorted hbef haft
    · intro t ht
      rw [(perm_insert ts _ k).mem_iff] at ht
      rcases List.mem_cons.1 ht with rfl | ht
      · simp only
        rw [List.filter_append]
        have : qs.filter (fun q => (h q).price == (h p).price) = [] := by
          rw [List.filter_eq_nil_iff]
          intro q hq e
          obtain ⟨t, ht, e'⟩ := hk.complete q hq
          exact hno t ht (by rw [e']; simpa using e)
        rw [this]; simp
      · rw [List.filter_append, ← hk.content t ht]
        simp [Ne.symm (hno t ht)]
    · intro t ht
      rw [(perm_insert ts _ k).mem_iff] at ht
      rcases List.mem_cons.1 ht with rfl | ht
      · simp
      · exact hk.nonempty t ht
    · intro q hq
      rcases List.mem_append.1 hq with hq | hq
      · obtain ⟨t, ht, e⟩ := hk.complete q hq
        exact ⟨t, by rw [(perm_insert ts _ k).mem_iff]; exact List.mem_cons_of_mem _ ht, e⟩
      · simp at hq; subst hq
        exact ⟨_, by rw [(perm_insert ts _ k).mem_iff]; exact List.mem_cons_self, rfl⟩

/-- Orders of a direction with positive matchable amount at their own price. -/
def eligible (h : Heap) (d : Dir) (ps : List Nat) : List Nat :=
  ps.filter (fun p => decide ((h p).dir = d) && decide (0 < matchableAmount (h p) (h p).price))

/-- The whole book is well formed for the added orders `ps`. -/
structure BookOk (h : Heap) (ps : List Nat) (ob : OrderBook) : Prop where
  buys : TicksOk false h (eligible h .buy ps) ob.buys
  sells : TicksOk true h (eligible h .sell ps) ob.sells

theorem bookOk_add {h : Heap} {ps : List Nat} {ob : OrderBook} (hk : BookOk h ps ob) (p : Nat) :
    BookOk h (ps ++ [p]) (addOrder h ob p) := by
  unfold addOrder
  have hb := hk.buys
  have hs := hk.sells
  unfold eligible at hb hs
  split
  · rename_i hm
    cases hd : (h p).dir with
    | buy =>
      constructor
      · simp only; unfold eligible; rw [List.filter_append]; simp [hd, hm]; exact ticksOk_add hb p
      · simp only; unfold eligible; rw [List.filter_append]; simp [hd]; exact hs
    | sell =>
      constructor
      · simp only; unfold eligible; rw [List.filter_append]; simp [hd]; exact hb
      · simp only; unfold eligible; rw [List.filter_append]; simp [hd, hm]; exact ticksOk_add hs p
  · rename_i hm
    constructor
    · unfold eligible; rw [List.filter_append]; simp [hm]; exact hb
    · unfold eligible; rw [List.filter_append]; simp [hm]; exact hs

theorem bookOk_foldl {h : Heap} (qs : List Nat) : ∀ {ps : List Nat} {ob : OrderBook}, BookOk h ps ob →
    BookOk h (ps ++ qs) (qs.foldl (addOrder h) ob) := by
  induction qs with
  | nil => intro ps ob hk; simpa using hk
  | cons q qs ih => intro ps ob hk; simpa using ih (bookOk_add hk q)

theorem bookOk_new (h : Heap) (ps : List Nat) : BookOk h ps (newOrderBook h ps) := by
  have h0 : BookOk h [] { buys := [], sells := [] } := by
    constructor <;> exact ⟨List.Pairwise.nil, by simp, by simp, by simp [eligible]⟩
  simpa [newOrderBook] using bookOk_foldl ps h0

/-- All orders of a side, flattened, are the eligible orders up to order. -/
theorem ticks_flatten_perm {h : Heap} {ts : List Tick} : ∀ {qs : List Nat},
    ts.Pairwise (fun a b => a.price ≠ b.price) →
    (∀ t ∈ ts, t.orders = qs.filter (fun p => (h p).price == t.price)) →
    (∀ p ∈ qs, ∃ t ∈ ts, t.price = (h p).price) → (ts.flatMap (·.orders)).Perm qs := by
  induction ts with
  | nil =>
    intro qs _ _ hc
    cases qs with
    | nil => simp
    | cons p ps => obtain ⟨g, hg, _⟩ := hc p (by simp); cases hg
  | cons g gs ih =>
    intro ps hp hcon hcomp
    rw [List.pairwise_cons] at hp
    rw [List.flatMap_cons, hcon g (by simp)]
    have := ih (qs := ps.filter (fun p => !((h p).price == g.price))) hp.2 (by
        intro g' hg'
        rw [hcon g' (by simp [hg']), List.filter_filter]
        apply List.filter_congr
        intro p _
        have := hp.1 g' hg'
        by_cases e : (h p).price = g'.price
        · simp [e, Ne.symm this]
        · simp [e])
      (by
        intro p hp'
        rw [List.mem_filter] at hp'
        obtain ⟨g', hg', e⟩ := hcomp p hp'.1
        rcases List.mem_cons.1 hg' with rfl | hg'
        · simp [e] at hp'
        · exact ⟨g', hg', e⟩)
    refine (List.Perm.append_left _ this).trans ?_
    exact List.filter_append_perm _ ps

theorem TicksOk.perm {inc : Bool} {h : Heap} {qs : List Nat} {ts : List Tick} (hk : TicksOk inc h qs ts) :
    (ts.flatMap (·.orders)).Perm qs := by
  apply ticks_flatten_perm (h := h) _ hk.content hk.complete
  refine hk.sorted.imp ?_
  intro a b hab e
  unfold priceBefore at hab
  cases inc <;> simp at hab <;> omega

end Verif.Amm

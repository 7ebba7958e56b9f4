import Verif.Model.OrderBookQuery
import Verif.Proofs.View
import Verif.Proofs.MatchPrice
/-! # The aggregation loops of the order book response -/
namespace Verif.Amm
open Verif Verif.Spec

/-- What the aggregation loop reports when it starts at `cur`. -/
structure LevelRun (depth : Int → Int) (ok : Int → Bool) (step : Int) (room : Nat) (cur : Int) (L : List Level) : Prop where
  sound : ∀ l ∈ L, (∃ k : Nat, l.price = cur + k * step) ∧ ok l.price = true ∧
    l.userAmt = depth l.price - depth (l.price - step) ∧ 0 < l.userAmt ∧ l.poolAmt = 0
  sorted : L.Pairwise (fun a b => ∃ k : Nat, b.price = a.price + (k + 1) * step)
  len : L.length ≤ room
  complete : ∀ k : Nat, ok (cur + k * step) = true → depth (cur + k * step - step) < depth (cur + k * step) →
    (∃ l ∈ L, l.price = cur + k * step) ∨
    (L.length = room ∧ ∀ l ∈ L, ∃ j : Nat, cur + k * step = l.price + (j + 1) * step)
  cum : ∀ A l B, L = A ++ l :: B → (A.map (·.userAmt)).sum + l.userAmt = depth l.price - depth (cur - step)

theorem ok_back {ok : Int → Bool} {step : Int} (hok : ∀ p, ok (p + step) = true → ok p = true) (cur : Int) :
    ∀ k : Nat, ok (cur + k * step) = true → ok cur = true := by
  intro k
  induction k with
  | zero => intro h; simpa using h
  | succ k ih =>
    intro h
    apply ih
    apply hok
    rw [show cur + (k:Int) * step + step = cur + ((k + 1 : Nat) : Int) * step by push_cast; ring]
    exact h

theorem depth_walk {depth : Int → Int} {step : Int} (hm : ∀ p, depth p ≤ depth (p + step)) (cur : Int) :
    ∀ k : Nat, depth cur ≤ depth (cur + k * step) := by
  intro k
  induction k with
  | zero => simp
  | succ k ih =>
    refine le_trans ih ?_
    have := hm (cur + k * step)
    rw [show cur + ((k + 1 : Nat) : Int) * step = cur + (k:Int) * step + step by push_cast; ring]
    exact this

theorem LevelRun.nil {depth : Int → Int} {ok : Int → Bool} {step : Int} {room : Nat} {cur : Int}
    (h : ∀ k : Nat, ok (cur + k * step) = true → depth (cur + k * step - step) < depth (cur + k * step) → room = 0) :
    LevelRun depth ok step room cur [] := by
  refine ⟨by simp, by simp, by simp, ?_, ?_⟩
  · intro k h1 h2
    right
    exact ⟨(h k h1 h2).symm, by simp⟩
  · intro A l B h
    cases A <;> simp at h

/-- Extend a run by a price that is not reported. -/
theorem LevelRun.skip {depth : Int → Int} {ok : Int → Bool} {step : Int} {room : Nat} {cur : Int} {L : List Level}
    (h : LevelRun depth ok step room (cur + step) L) (he : depth cur = depth (cur - step)) :
    LevelRun depth ok step room cur L := by
  refine ⟨?_, h.sorted, h.len, ?_, ?_⟩
  · intro l hl
    obtain ⟨⟨k, hk⟩, r⟩ := h.sound l hl
    exact ⟨⟨k + 1, by rw [hk]; push_cast; ring⟩, r⟩
  · intro k h1 h2
    cases k with
    | zero => simp at h2; rw [he] at h2; omega
    | succ k =>
      have e : cur + ((k + 1 : Nat) : Int) * step = cur + step + (k : Int) * step := by push_cast; ring
      rw [e] at h1 h2 ⊢
      exact h.complete k h1 h2
  · intro A l B e
    have := h.cum A l B e
    rw [show cur + step - step = cur by ring] at this
    rw [this, he]

/-- Extend a run by a reported price. -/
theorem LevelRun.report {depth : Int → Int} {ok : Int → Bool} {step : Int} {room : Nat} {cur : Int} {L : List Level}
    (h : LevelRun depth ok step room (cur + step) L) (hlt : depth (cur - step) < depth cur) (hok : ok cur = true) :
    LevelRun depth ok step (room + 1) cur (⟨cur, depth cur - depth (cur - step), 0⟩ :: L) := by
  refine ⟨?_, ?_, ?_, ?_, ?_⟩
  · intro l hl
    rcases List.mem_cons.1 hl with rfl | hl
    · exact ⟨⟨0, by simp⟩, hok, rfl, by simp; omega, rfl⟩
    · obtain ⟨⟨k, hk⟩, r⟩ := h.sound l hl
      exact ⟨⟨k + 1, by rw [hk]; push_cast; ring⟩, r⟩
  · refine List.pairwise_cons.2 ⟨?_, h.sorted⟩
    intro l hl
    obtain ⟨⟨k, hk⟩, _⟩ := h.sound l hl
    exact ⟨k, by rw [hk]; push_cast; ring⟩
  · have := h.len; simp; exact this
  · intro k h1 h2
    cases k with
    | zero => left; exact ⟨_, List.mem_cons_self, by simp⟩
    | succ k =>
      have e : cur + ((k + 1 : Nat) : Int) * step = cur + step + (k : Int) * step := by push_cast; ring
      rw [e] at h1 h2 ⊢
      rcases h.complete k h1 h2 with ⟨l, hl, e'⟩ | ⟨hlen, hall⟩
      · left; exact ⟨l, List.mem_cons_of_mem _ hl, e'⟩
      · right
        refine ⟨by simp [hlen], ?_⟩
        intro l hl
        rcases List.mem_cons.1 hl with rfl | hl
        · exact ⟨k, by simp; ring⟩
        · exact hall l hl
  · intro A l B e
    cases A with
    | nil => simp at e; rw [← e.1]; simp
    | cons a A =>
      simp at e
      have := h.cum A l B e.2
      rw [show cur + step - step = cur by ring] at this
      rw [← e.1]
      simp
      omega

theorem levelLoop_spec {depth : Int → Int} {rest : Int → Option Int} {ok : Int → Bool} {step T : Int}
    (hrest : ∀ p, rest p = some (T - depth p)) (hT : ∀ p, depth p ≤ T) (hm : ∀ p, depth p ≤ depth (p + step))
    (hok : ∀ p, ok (p + step) = true → ok p = true) :
    ∀ (fuel room : Nat) (cur acc : Int), acc = depth (cur - step) → ok (cur + fuel * step) = false →
      ∃ L, levelLoop depth rest ok step fuel room cur acc = some L ∧ LevelRun depth ok step room cur L := by
  intro fuel
  induction fuel with
  | zero =>
    intro room cur acc ha hf
    refine ⟨[], rfl, LevelRun.nil ?_⟩
    intro k h1 _
    have := ok_back hok cur k h1
    simp at hf; rw [hf] at this; cases this
  | succ fuel ih =>
    intro room cur acc ha hf
    have hf' : ok (cur + step + fuel * step) = false := by
      rw [← hf]; congr 1; push_cast; ring
    rw [levelLoop]
    by_cases h0 : room = 0 ∨ ok cur = false
    · rw [if_pos h0]
      refine ⟨[], rfl, LevelRun.nil ?_⟩
      intro k h1 _
      rcases h0 with h0 | h0
      · exact h0
      · have := ok_back hok cur k h1; rw [h0] at this; cases this
    · rw [if_neg h0]
      have hroom : room ≠ 0 := fun h => h0 (Or.inl h)
      have hcur : ok cur = true := by
        cases h : ok cur with
        | true => rfl
        | false => exact absurd (Or.inr h) h0
      simp only [hrest]
      have hmc := hm (cur - step)
      rw [show cur - step + step = cur by ring] at hmc
      -- nothing lies beyond an exhausted side
      have hdone : ¬ 0 < T - depth cur → ∀ r : Nat, LevelRun depth ok step r (cur + step) [] := by
        intro hr r
        refine LevelRun.nil ?_
        intro k _ h2
        have a1 := hT (cur + step + k * step)
        have a2 := depth_walk hm cur k
        rw [show cur + step + (k:Int) * step - step = cur + k * step by ring] at h2
        omega
      by_cases hamt : 0 < depth cur - acc
      · rw [if_pos hamt]
        by_cases hr : ¬ 0 < T - depth cur
        · rw [if_pos hr]
          refine ⟨_, rfl, ?_⟩
          have := (hdone hr (room - 1)).report (by omega) hcur
          rw [show room - 1 + 1 = room by omega] at this
          rw [ha]; exact this
        · rw [if_neg hr]
          obtain ⟨L, e, hL⟩ := ih (room - 1) (cur + step) (acc + (depth cur - acc)) (by
            rw [show cur + step - step = cur by ring]; ring) hf'
          refine ⟨_, by rw [e]; rfl, ?_⟩
          have := hL.report (by omega) hcur
          rw [show room - 1 + 1 = room by omega] at this
          rw [ha]; exact this
      · rw [if_neg hamt]
        have he : depth cur = depth (cur - step) := by omega
        by_cases hr : ¬ 0 < T - depth cur
        · rw [if_pos hr]
          exact ⟨_, rfl, (hdone hr room).skip he⟩
        · rw [if_neg hr]
          obtain ⟨L, e, hL⟩ := ih room (cur + step) acc (by
            rw [show cur + step - step = cur by ring]; omega) hf'
          exact ⟨_, e, hL.skip he⟩

/-! ## Depths of a view -/

/-- Total of a side. -/
def sideTotal (l : List AccSum) : Int := (l.getLast?.map (·.sum)).getD 0

theorem side_total {inc : Bool} {l : List AccSum} (hl : SideView inc l) : ∀ a ∈ l, a.sum ≤ sideTotal l := by
  intro a ha
  unfold sideTotal
  have hne : l ≠ [] := by intro h; rw [h] at ha; cases ha
  rw [List.getLast?_eq_some_getLast hne]
  simp only [Option.map_some, Option.getD_some]
  obtain ⟨i, hi, rfl⟩ := List.mem_iff_getElem.1 ha
  rw [List.getLast_eq_getElem]
  rcases Nat.lt_or_ge i (l.length - 1) with h | h
  · exact (List.pairwise_iff_getElem.1 hl.sorted i (l.length - 1) hi (by omega) h).2
  · have : i = l.length - 1 := by omega
    subst this; exact le_refl _

theorem sideTotal_nonneg {inc : Bool} {l : List AccSum} (hl : SideView inc l) : 0 ≤ sideTotal l := by
  unfold sideTotal
  cases h : l.getLast? with
  | none => simp
  | some a => simpa using hl.nonneg a (List.mem_of_getLast? h)

theorem buyUnder_rest {v : OrderBookView} (hne : v.buys ≠ []) (p : Int) :
    v.buyAmountUnder p false = some (sideTotal v.buys - v.buyAmountOver p true) := by
  unfold OrderBookView.buyAmountUnder OrderBookView.buyAmountOver sideTotal
  rw [List.getLast?_eq_some_getLast hne]
  simp only [if_true, Bool.false_eq_true, if_false, Option.map_some, Option.getD_some]
  split
  · rename_i h
    rw [h]; simp [sumBefore]
  · rfl

theorem sellOver_rest {v : OrderBookView} (hne : v.sells ≠ []) (p : Int) :
    v.sellAmountOver p false = some (sideTotal v.sells - v.sellAmountUnder p true) := by
  unfold OrderBookView.sellAmountOver OrderBookView.sellAmountUnder sideTotal
  rw [List.getLast?_eq_some_getLast hne]
  simp only [if_true, Bool.false_eq_true, if_false, Option.map_some, Option.getD_some]
  split
  · rename_i h
    rw [h]; simp [sumBefore]
  · rfl

theorem sellOver_rest' {v : OrderBookView} (hne : v.sells ≠ []) (p : Int) :
    v.sellAmountOver p true = some (sideTotal v.sells - v.sellAmountUnder p false) := by
  unfold OrderBookView.sellAmountOver OrderBookView.sellAmountUnder sideTotal
  rw [List.getLast?_eq_some_getLast hne]
  simp only [if_true, Bool.false_eq_true, if_false, Option.map_some, Option.getD_some]
  split
  · rename_i h
    rw [h]; simp [sumBefore]
  · rfl

theorem buyOver_total {v : OrderBookView} (hv : ViewOk v) (p : Int) (i : Bool) :
    v.buyAmountOver p i ≤ sideTotal v.buys := by
  rcases (buyOver_acc hv p i).attained with e | ⟨a, ha, _, e⟩
  · rw [e]; exact sideTotal_nonneg hv.buys
  · rw [e]; exact side_total hv.buys a ha

theorem sellUnder_total {v : OrderBookView} (hv : ViewOk v) (p : Int) (i : Bool) :
    v.sellAmountUnder p i ≤ sideTotal v.sells := by
  rcases (sellUnder_acc hv p i).attained with e | ⟨a, ha, _, e⟩
  · rw [e]; exact sideTotal_nonneg hv.sells
  · rw [e]; exact side_total hv.sells a ha

/-- Every sum of a matched view is one of the cut sums, or nothing was cut. -/
theorem match_ok {v : OrderBookView} (hv : ViewOk v) (hsb : StrictSide v.buys) (hss : StrictSide v.sells) : ViewOk v.match := by
  obtain ⟨m, hm⟩ := best_exists hv
  by_cases hc : (∃ p, m < v.buyAmountOver p true) ∨ (∃ p, m < v.sellAmountUnder p true) ∨ m = 0
  · rw [match_spec hv hm hc]; exact match_view_ok hv m
  · push Not at hc
    obtain ⟨h1, h2, h3⟩ := hc
    have := match_balanced hv hsb hss hm (by have := hm.nonneg; omega) h1 h2
    rw [this]; exact hv

/-- Best prices of a view in terms of its depth. -/
theorem lowestSell_iff {v : OrderBookView} (hv : ViewOk v) (b : Int) :
    v.lowestSellPrice = some b → 0 < v.sellAmountUnder b true ∧ (∀ p, p < b → v.sellAmountUnder p true = 0) ∧ v.sells ≠ [] := by
  intro h
  have := ((best_spec hv.sells).1 b).1 (by simpa [OrderBookView.lowestSellPrice] using h)
  obtain ⟨⟨a, ha, rfl, hp⟩, hall⟩ := this
  refine ⟨?_, ?_, ?_⟩
  · have := (sellUnder_acc hv a.price true).bound a ha (by simp)
    omega
  · intro p hp'
    rcases (sellUnder_acc hv p true).attained with e | ⟨x, hx, hc, e⟩
    · exact e
    · by_contra hne
      have h0 := (sellUnder_acc hv p true).nonneg
      rcases hall x hx (by omega) with h' | h'
      · simp at hc; omega
      · simp [priceBefore] at h' hc; omega
  · intro hn; rw [hn] at ha; cases ha

theorem highestBuy_iff {v : OrderBookView} (hv : ViewOk v) (b : Int) :
    v.highestBuyPrice = some b → 0 < v.buyAmountOver b true ∧ (∀ p, b < p → v.buyAmountOver p true = 0) ∧ v.buys ≠ [] := by
  intro h
  have := ((best_spec hv.buys).1 b).1 (by simpa [OrderBookView.highestBuyPrice] using h)
  obtain ⟨⟨a, ha, rfl, hp⟩, hall⟩ := this
  refine ⟨?_, ?_, ?_⟩
  · have := (buyOver_acc hv a.price true).bound a ha (by simp)
    omega
  · intro p hp'
    rcases (buyOver_acc hv p true).attained with e | ⟨x, hx, hc, e⟩
    · exact e
    · by_contra hne
      have h0 := (buyOver_acc hv p true).nonneg
      rcases hall x hx (by omega) with h' | h'
      · simp at hc; omega
      · simp [priceBefore] at h' hc; omega
  · intro hn; rw [hn] at ha; cases ha

theorem lowestSell_none {v : OrderBookView} (hv : ViewOk v) (h : v.lowestSellPrice = none) (p : Int) (i : Bool) :
    v.sellAmountUnder p i = 0 := by
  have := (best_spec hv.sells).2.1 (by simpa [OrderBookView.lowestSellPrice] using h)
  rcases (sellUnder_acc hv p i).attained with e | ⟨x, hx, _, e⟩
  · exact e
  · rw [e]; exact this x hx

theorem highestBuy_none {v : OrderBookView} (hv : ViewOk v) (h : v.highestBuyPrice = none) (p : Int) (i : Bool) :
    v.buyAmountOver p i = 0 := by
  have := (best_spec hv.buys).2.1 (by simpa [OrderBookView.highestBuyPrice] using h)
  rcases (buyOver_acc hv p i).attained with e | ⟨x, hx, _, e⟩
  · exact e
  · rw [e]; exact this x hx

/-! ## Fitting to a gap -/

theorem fit_down {price gap : Int} (h0 : 0 ≤ price) (hg : 0 < gap) :
    gap ∣ fitPriceToTickGap price gap true ∧ fitPriceToTickGap price gap true ≤ price ∧
    price < fitPriceToTickGap price gap true + gap := by
  unfold fitPriceToTickGap
  simp only [Bool.not_true, Bool.false_and, Bool.false_eq_true, if_false]
  rw [Int.tdiv_eq_ediv_of_nonneg h0]
  refine ⟨Dvd.intro_left _ rfl, Int.ediv_mul_le _ (by omega), ?_⟩
  have := Int.lt_ediv_add_one_mul_self price hg
  rw [add_mul, one_mul] at this; exact this

theorem fit_up {price gap : Int} (h0 : 0 ≤ price) (hg : 0 < gap) :
    gap ∣ fitPriceToTickGap price gap false ∧ price ≤ fitPriceToTickGap price gap false ∧
    fitPriceToTickGap price gap false - gap < price := by
  obtain ⟨d1, d2, d3⟩ := fit_down h0 hg
  have e : fitPriceToTickGap price gap true = price.tdiv gap * gap := by simp [fitPriceToTickGap]
  have e2 : fitPriceToTickGap price gap false =
      if price.tdiv gap * gap ≠ price then price.tdiv gap * gap + gap else price.tdiv gap * gap := by
    unfold fitPriceToTickGap
    simp
  rw [← e] at e2
  rw [e2]
  split
  · rename_i hne
    exact ⟨Int.dvd_add d1 (Int.dvd_refl _), by omega, by omega⟩
  · rename_i hne
    push Not at hne
    exact ⟨d1, by omega, by omega⟩

end Verif.Amm

import Verif.Proofs.Levels
import Verif.Spec.Book
/-! # From the aggregation loops to the order book specification -/
namespace Verif.Amm
open Verif Verif.Spec

theorem dvd_walk {unit start p : Int} (hu : 0 < unit) (hs : unit ∣ start) (hp : unit ∣ p) (h : start ≤ p) :
    ∃ k : Nat, p = start + k * unit := by
  obtain ⟨c, hc⟩ := Int.dvd_sub hp hs
  have hc0 : 0 ≤ c := by
    by_contra h'
    have : unit * c < 0 := Int.mul_neg_of_pos_of_neg hu (by omega)
    omega
  refine ⟨c.toNat, ?_⟩
  rw [Int.toNat_of_nonneg hc0, Int.mul_comm c unit]; omega

theorem mul_step_pos {unit : Int} (hu : 0 < unit) (k : Nat) : 0 < ((k : Int) + 1) * unit := Int.mul_pos (by omega) hu

theorem filter_split {A B : List Level} {l : Level} {q : Level → Bool} (hA : ∀ x ∈ A, q x = true) (hl : q l = true)
    (hB : ∀ x ∈ B, q x = false) : (A ++ l :: B).filter q = A ++ [l] := by
  rw [List.filter_append, List.filter_cons, List.filter_eq_self.2 hA, List.filter_eq_nil_iff.2 (by
    intro x hx; simp [hB x hx])]
  simp [hl]

theorem sells_of_run {depth : Int → Int} {unit highest start : Int} {n : Nat} {L : List Level} (hu : 0 < unit)
    (hs : unit ∣ start) (h0 : ∀ p, p < start → unit ∣ p → depth p = 0) (hnn : ∀ p, 0 ≤ depth p)
    (h : LevelRun depth (fun p => decide (p ≤ highest)) unit n start L) :
    ReportsSells depth unit highest n L.reverse := by
  have hlt : L.Pairwise (fun a b => a.price < b.price) := by
    refine h.sorted.imp ?_
    rintro a b ⟨k, e⟩
    have := mul_step_pos hu k
    omega
  refine ⟨?_, ?_, by rw [List.length_reverse]; exact h.len, ?_, ?_⟩
  · intro l hl
    obtain ⟨⟨k, hk⟩, h1, h2, h3, h4⟩ := h.sound l (List.mem_reverse.1 hl)
    refine ⟨?_, by simpa using h1, h2, h3, h4⟩
    rw [hk]
    exact Int.dvd_add hs (Int.dvd_mul_left _ _)
  · rw [List.pairwise_reverse]; exact hlt
  · intro p hp hle hd
    have hge : start ≤ p := by
      by_contra hc
      have := h0 p (by omega) hp
      have := hnn (p - unit)
      omega
    obtain ⟨k, rfl⟩ := dvd_walk hu hs hp hge
    rcases h.complete k (by simpa using hle) hd with ⟨l, hl, e⟩ | ⟨hlen, hall⟩
    · exact Or.inl ⟨l, List.mem_reverse.2 hl, e⟩
    · refine Or.inr ⟨by rw [List.length_reverse]; exact hlen, ?_⟩
      intro l hl
      obtain ⟨j, e⟩ := hall l (List.mem_reverse.1 hl)
      have := mul_step_pos hu j
      omega
  · intro l hl
    obtain ⟨A, B, e⟩ := List.append_of_mem (List.mem_reverse.1 hl)
    have hc := h.cum A l B e
    rw [h0 (start - unit) (by omega) (Int.dvd_sub hs (Int.dvd_refl _))] at hc
    rw [List.filter_reverse, List.map_reverse, List.sum_reverse]
    rw [e] at hlt ⊢
    obtain ⟨p1, p2, p3⟩ := List.pairwise_append.1 hlt
    rw [filter_split (fun x hx => by have := p3 x hx l (by simp); simp; omega) (by simp)
      (fun x hx => by have := (List.pairwise_cons.1 p2).1 x hx; simp; omega)]
    simp; omega

theorem buys_of_run {depth : Int → Int} {unit lowest start : Int} {n : Nat} {L : List Level} (hu : 0 < unit)
    (hs : unit ∣ start) (h0 : ∀ p, start < p → unit ∣ p → depth p = 0) (hnn : ∀ p, 0 ≤ depth p)
    (h : LevelRun depth (fun p => decide (lowest ≤ p) && !decide (p < 0)) (-unit) n start L) :
    ReportsBuys depth unit lowest n L := by
  have hneg : ∀ (a : Int), a * -unit = -(a * unit) := fun a => by rw [Int.mul_neg]
  have hlt : L.Pairwise (fun a b => b.price < a.price) := by
    refine h.sorted.imp ?_
    rintro a b ⟨k, e⟩
    have := mul_step_pos hu k
    rw [hneg] at e
    omega
  refine ⟨?_, hlt, h.len, ?_, ?_⟩
  · intro l hl
    obtain ⟨⟨k, hk⟩, h1, h2, h3, h4⟩ := h.sound l hl
    simp at h1
    refine ⟨?_, h1.1, h1.2, ?_, h3, h4⟩
    · rw [hk, hneg]
      exact Int.dvd_add hs (Int.dvd_neg.2 (Int.dvd_mul_left _ _))
    · rw [h2, sub_neg_eq_add]
  · intro p hp hle hp0 hd
    have hge : p ≤ start := by
      by_contra hc
      have := h0 p (by omega) hp
      have := hnn (p + unit)
      omega
    obtain ⟨k, hk⟩ := dvd_walk hu hp hs hge
    have e : start + (k : Int) * -unit = p := by rw [hneg]; omega
    have := h.complete k (by rw [e]; simp; exact ⟨hle, hp0⟩) (by rw [e, sub_neg_eq_add]; exact hd)
    rw [e] at this
    rcases this with h' | ⟨hlen, hall⟩
    · exact Or.inl h'
    · refine Or.inr ⟨hlen, ?_⟩
      intro l hl
      obtain ⟨j, e'⟩ := hall l hl
      have := mul_step_pos hu j
      rw [hneg] at e'
      omega
  · intro l hl
    obtain ⟨A, B, e⟩ := List.append_of_mem hl
    have hc := h.cum A l B e
    rw [sub_neg_eq_add, h0 (start + unit) (by omega) (Int.dvd_add hs (Int.dvd_refl _))] at hc
    rw [e] at hlt ⊢
    obtain ⟨p1, p2, p3⟩ := List.pairwise_append.1 hlt
    rw [filter_split (fun x hx => by have := p3 x hx l (by simp); simp; omega) (by simp)
      (fun x hx => by have := (List.pairwise_cons.1 p2).1 x hx; simp; omega)]
    simp; omega

theorem sellLevels_spec {v : OrderBookView} (hv : ViewOk v) {unit highest : Int} (hu : 0 < unit) (n : Nat)
    (hp : ∀ ls, v.lowestSellPrice = some ls → 0 ≤ ls) :
    ∃ L, sellLevels v highest unit n = some L ∧ ReportsSells (fun p => v.sellAmountUnder p true) unit highest n L := by
  unfold sellLevels
  cases hls : v.lowestSellPrice with
  | none =>
    refine ⟨[], rfl, ⟨by simp, by simp, by simp, ?_, by simp⟩⟩
    intro p _ _ h
    simp only [lowestSell_none hv hls] at h; omega
  | some ls =>
    obtain ⟨f1, f2, f3⟩ := fit_up (hp ls hls) hu
    obtain ⟨_, b2, b3⟩ := lowestSell_iff hv ls hls
    have hz : ∀ p, p < fitPriceToTickGap ls unit false → unit ∣ p → v.sellAmountUnder p true = 0 := by
      intro p hlt hd
      apply b2
      obtain ⟨k, hk⟩ := dvd_walk hu hd f1 (by omega)
      have : k ≠ 0 := by rintro rfl; simp at hk; omega
      have : unit ≤ (k : Int) * unit := by
        have := Int.mul_le_mul_of_nonneg_right (show (1:Int) ≤ k by omega) (Int.le_of_lt hu)
        omega
      omega
    obtain ⟨L, e, hL⟩ := levelLoop_spec (depth := fun p => v.sellAmountUnder p true)
      (rest := fun p => v.sellAmountOver p false) (ok := fun p => decide (p ≤ highest)) (step := unit)
      (T := sideTotal v.sells) (fun p => sellOver_rest b3 p) (fun p => sellUnder_total hv p true)
      (fun p => sellUnder_mono hv (by omega)) (fun p h => by simp at *; omega)
      (highest - fitPriceToTickGap ls unit false + 1).toNat n (fitPriceToTickGap ls unit false) 0
      (by rw [hz _ (by omega) (Int.dvd_sub f1 (Int.dvd_refl _))])
      (by
        simp
        have : (highest - fitPriceToTickGap ls unit false + 1) ≤
            max (highest - fitPriceToTickGap ls unit false + 1) 0 * unit := by
          have h1 := Int.mul_le_mul_of_nonneg_left (show (1:Int) ≤ unit by omega)
            (show 0 ≤ max (highest - fitPriceToTickGap ls unit false + 1) 0 by omega)
          omega
        omega)
    refine ⟨L.reverse, ?_, ?_⟩
    · change (levelLoop _ _ _ _ _ _ _ _).map _ = _
      rw [e]; rfl
    · exact sells_of_run hu f1 hz (fun p => (sellUnder_acc hv p true).nonneg) hL

theorem buyLevels_spec {v : OrderBookView} (hv : ViewOk v) {unit lowest : Int} (hu : 0 < unit) (n : Nat)
    (hp : ∀ hb, v.highestBuyPrice = some hb → 0 ≤ hb) :
    ∃ L, buyLevels v lowest unit n = some L ∧ ReportsBuys (fun p => v.buyAmountOver p true) unit lowest n L := by
  unfold buyLevels
  cases hhb : v.highestBuyPrice with
  | none =>
    refine ⟨[], rfl, ⟨by simp, by simp, by simp, ?_, by simp⟩⟩
    intro p _ _ _ h
    simp only [highestBuy_none hv hhb] at h; omega
  | some hb =>
    obtain ⟨f1, f2, f3⟩ := fit_down (hp hb hhb) hu
    obtain ⟨_, b2, b3⟩ := highestBuy_iff hv hb hhb
    have hz : ∀ p, fitPriceToTickGap hb unit true < p → unit ∣ p → v.buyAmountOver p true = 0 := by
      intro p hlt hd
      apply b2
      obtain ⟨k, hk⟩ := dvd_walk hu f1 hd (by omega)
      have : k ≠ 0 := by rintro rfl; simp at hk; omega
      have : unit ≤ (k : Int) * unit := by
        have := Int.mul_le_mul_of_nonneg_right (show (1:Int) ≤ k by omega) (Int.le_of_lt hu)
        omega
      omega
    obtain ⟨L, e, hL⟩ := levelLoop_spec (depth := fun p => v.buyAmountOver p true)
      (rest := fun p => v.buyAmountUnder p false) (ok := fun p => decide (lowest ≤ p) && !decide (p < 0)) (step := -unit)
      (T := sideTotal v.buys) (fun p => buyUnder_rest b3 p) (fun p => buyOver_total hv p true)
      (fun p => buyOver_anti hv (by omega)) (fun p h => by simp at *; omega)
      (fitPriceToTickGap hb unit true - lowest + 1).toNat n (fitPriceToTickGap hb unit true) 0
      (by rw [sub_neg_eq_add, hz _ (by omega) (Int.dvd_add f1 (Int.dvd_refl _))])
      (by
        have h1 : (fitPriceToTickGap hb unit true - lowest + 1) ≤
            ((fitPriceToTickGap hb unit true - lowest + 1).toNat : Int) * unit := by
          have h1 := Int.mul_le_mul_of_nonneg_left (show (1:Int) ≤ unit by omega)
            (show 0 ≤ ((fitPriceToTickGap hb unit true - lowest + 1).toNat : Int) by omega)
          omega
        rw [Int.mul_neg]
        simp only [Bool.and_eq_false_iff, decide_eq_false_iff_not]
        left
        omega)
    exact ⟨L, e, buys_of_run hu f1 hz (fun p => (buyOver_acc hv p true).nonneg) hL⟩

/-! ## The price whose tick gap is the unit -/

theorem walk_shift (prec : Nat) (p : Int) : ∀ k, tickWalk prec (upTick p prec) k = tickWalk prec p (k + 1) := by
  intro k
  induction k with
  | zero => rfl
  | succ k ih => rw [tickWalk, ih]; rfl

theorem count_shift (v : OrderBookView) (prec : Nat) (p : Int) (k : Nat) :
    sellTicksUpTo v prec p (k + 1) =
      (if v.sellAmountUnder p false < v.sellAmountUnder p true then 1 else 0) + sellTicksUpTo v prec (upTick p prec) k := by
  unfold sellTicksUpTo
  rw [List.range_succ_eq_map, List.filter_cons, List.filter_map, ]
  have e : ((fun i => decide (v.sellAmountUnder (tickWalk prec p i) false < v.sellAmountUnder (tickWalk prec p i) true)) ∘
      Nat.succ) = fun i => decide (v.sellAmountUnder (tickWalk prec (upTick p prec) i) false <
        v.sellAmountUnder (tickWalk prec (upTick p prec) i) true) := by
    funext i; simp only [Function.comp, walk_shift]
  rw [e]
  simp only [tickWalk]
  by_cases h : v.sellAmountUnder p false < v.sellAmountUnder p true <;> simp [h, Nat.add_comm]

theorem count_zero (v : OrderBookView) (prec : Nat) (p : Int) :
    sellTicksUpTo v prec p 0 = if v.sellAmountUnder p false < v.sellAmountUnder p true then 1 else 0 := by
  unfold sellTicksUpTo
  simp only [Nat.zero_add, List.range_one, List.filter_cons, List.filter_nil, tickWalk]
  by_cases h : v.sellAmountUnder p false < v.sellAmountUnder p true <;> simp [h]

theorem unitPriceLoop_spec {v : OrderBookView} (hv : ViewOk v) (hne : v.sells ≠ []) {prec : Nat} {highest : Int} :
    ∀ (fuel room : Nat) (cur : Int), 0 < cur → room ≠ 0 → (highest - cur + 1).toNat ≤ fuel →
      ∃ c, unitPriceLoop v highest prec fuel room cur = some c ∧ EndOfWalk v prec highest room cur c := by
  have hsup : ∃ a, v.sellAmountUnder a true = sideTotal v.sells := by
    refine ⟨(v.sells.getLast hne).price, ?_⟩
    apply le_antisymm (sellUnder_total hv _ _)
    unfold sideTotal
    rw [List.getLast?_eq_some_getLast hne]
    simp only [Option.map_some, Option.getD_some]
    exact (sellUnder_acc hv _ true).bound _ (List.getLast_mem hne) (by simp)
  intro fuel
  induction fuel with
  | zero =>
    intro room cur hc hr hf
    exact ⟨cur, rfl, 0, rfl, Or.inl (show highest < cur by omega), by omega⟩
  | succ fuel ih =>
    intro room cur hc hr hf
    rw [unitPriceLoop]
    by_cases h0 : room = 0 ∨ ¬ cur ≤ highest
    · rw [if_pos h0]
      exact ⟨cur, rfl, 0, rfl, Or.inl (show highest < cur by omega), by omega⟩
    · rw [if_neg h0]
      rw [sellOver_rest' hne, sellOver_rest hne]
      simp only
      have hnxt := (isNext_up hc prec).2.1
      have hlt_iff : (0 < sideTotal v.sells - v.sellAmountUnder cur false - (sideTotal v.sells - v.sellAmountUnder cur true)) ↔
          v.sellAmountUnder cur false < v.sellAmountUnder cur true := by omega
      have hc0 := count_zero v prec cur
      rw [if_congr hlt_iff rfl rfl]
      generalize hroom' : (if v.sellAmountUnder cur false < v.sellAmountUnder cur true then room - 1 else room) = room'
      by_cases h1 : room' = 0
      · rw [if_pos h1]
        refine ⟨cur, rfl, 0, rfl, Or.inr (Or.inl ?_), by omega⟩
        rw [hc0]
        split at hroom' <;> rename_i hx <;> simp [hx] <;> omega
      · rw [if_neg h1]
        by_cases h2 : ¬ 0 < sideTotal v.sells - v.sellAmountUnder cur true
        · rw [if_pos h2]
          refine ⟨cur, rfl, 0, rfl, Or.inr (Or.inr ?_), by omega⟩
          intro p
          have := sellUnder_total hv p true
          simp only [tickWalk]; omega
        · rw [if_neg h2]
          obtain ⟨c, e, k, hk, hstop, hmin⟩ := ih room' (upTick cur prec) (by omega) h1 (by omega)
          have hcnt : ∀ i, sellTicksUpTo v prec cur (i + 1) = room ↔ sellTicksUpTo v prec (upTick cur prec) i = room' := by
            intro i
            rw [count_shift]
            split at hroom' <;> rename_i hx <;> simp [hx] <;> omega
          refine ⟨c, e, k + 1, by rw [hk, walk_shift], ?_, ?_⟩
          · rw [walk_shift] at hstop
            rw [hcnt]; exact hstop
          · intro i hi
            cases i with
            | zero =>
              rintro (h | h | h)
              · simp [tickWalk] at h; omega
              · rw [hc0] at h
                split at hroom' <;> rename_i hx <;> simp [hx] at h <;> omega
              · obtain ⟨a, ha⟩ := hsup
                have := h a
                simp only [tickWalk] at this; omega
            | succ i =>
              have := hmin i (by omega)
              simp only [walk_shift] at this
              simp only [hcnt]; exact this

end Verif.Amm

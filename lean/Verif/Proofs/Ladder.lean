import Verif.Proofs.PoolProduct
import Verif.Proofs.PoolDepth
import Verif.Proofs.PoolSell
import Verif.Proofs.MatchExtra
/-! # The generated pool orders are the full ladder (x/dex/amm/pool.go:592-672) -/
namespace Verif.Amm
open Verif Verif.Dec Verif.Spec

theorem down?_some {x t : Int} {prec : Nat} (h : priceToDownTick? x prec = some t) : priceToDownTick x prec = t := by
  unfold priceToDownTick? at h
  split at h
  · simp at h
  · simpa using h

theorem up?_some {x t : Int} {prec : Nat} (h : priceToUpTick? x prec = some t) : priceToUpTick x prec = t := by
  unfold priceToUpTick? at h
  split at h
  · simp at h
  · simpa using h

/-- No tick lies strictly between `downTick t` and `t`. -/
theorem downTick_gap {t u : Int} {prec : Nat} (ht : 0 < t) (hu : IsTick prec u) (h : downTick t prec < u) : t ≤ u := by
  by_cases h1 : 1 < t
  · by_contra hc
    have := (isPrev_down h1 prec).2.2 u hu (by omega)
    omega
  · have := isTick_pos hu
    omega

theorem buyLoop_ladder (prec : Nat) {pp lowest : Int} (hpp : 0 ≤ pp) (hlow : 0 < lowest) :
    ∀ (fuel : Nat) (p : Pool) (tick start : Int) (acc l : List (Int × Int)), 0 ≤ p.rx → 0 ≤ p.ry →
      (lowest ≤ tick → IsTick prec tick ∧ tick ≤ start) →
      (∀ u, IsTick prec u → lowest ≤ u → tick < u → u ≤ start → ∃ b, p.buyAmountOver u = some b ∧ b < 100) →
      buyLoop prec pp lowest fuel p tick acc = .done l →
      ∃ l', l = acc ++ l' ∧ BuyLadder prec pp lowest p start l' := by
  intro fuel
  induction fuel with
  | zero => intro p tick start acc l _ _ _ _ h; simp [buyLoop] at h
  | succ n ih =>
    intro p tick start acc l hrx hry hT hS h
    rw [buyLoop] at h
    by_cases ht : tick ≥ lowest
    · rw [if_neg (by omega)] at h
      have htp : 0 < tick := by omega
      obtain ⟨hT1, hT2⟩ := hT ht
      cases hb : p.buyAmountOver tick with
      | none => rw [hb] at h; simp at h
      | some amt =>
        rw [hb] at h
        simp only at h
        obtain ⟨ha0, hac⟩ := buyAmountOver_facts hrx hry htp hb
        by_cases hm : amt < minCoinAmount
        · rw [if_pos hm] at h
          refine ih p (downTick tick prec) start acc l hrx hry (fun hl => ?_) (fun u hu hlu hlt hus => ?_) h
          · obtain ⟨d0, d1, d2⟩ := downTick_facts htp prec
            exact ⟨d2 (by omega), by omega⟩
          · have := downTick_gap htp hu hlt
            rcases eq_or_lt_of_le this with e | e
            · subst e; exact ⟨amt, hb, hm⟩
            · exact hS u hu hlu e hus
        · rw [if_neg hm] at h
          have hamt : 100 ≤ amt := by unfold minCoinAmount at hm; omega
          have hpos : 0 < tick * amt := Int.mul_pos htp (by omega)
          have qle : quoteCeil tick amt ≤ p.rx := quoteCeil_le (le_of_lt hpos) hac
          have hrx' : (afterBuy p tick amt).1 = p.rx - quoteCeil tick amt := rfl
          have hry' : (afterBuy p tick amt).2 = p.ry + amt := rfl
          simp only [hrx', hry'] at h
          have hq := quoteUp_eq (le_of_lt hpos)
          have hS' : ∀ u, IsTick prec u → tick < u → u ≤ start → ∃ b, p.buyAmountOver u = some b ∧ b < 100 :=
            fun u hu hlt hus => hS u hu (by omega) hlt hus
          by_cases hz : 0 < p.rx - quoteCeil tick amt
          · rw [if_neg (by omega)] at h
            obtain ⟨g1, g2⟩ := @gapBuy pp tick hpp
            obtain ⟨t, e, t1, t2, t3⟩ := @nextBuy tick _ prec htp g1 g2
            rw [e] at h
            simp only at h
            have e' := down?_some e
            have hmp : 0 < Dec.mul tick (Dec.one - poolOrderPriceGapRatio pp tick) := by
              have h1 : Dec.mul 1 995000000000000000 ≤ Dec.mul 1 (Dec.one - poolOrderPriceGapRatio pp tick) :=
                mul_mono_right (by decide) (by decide) g1
              have h2 : Dec.mul 1 (Dec.one - poolOrderPriceGapRatio pp tick) ≤
                  Dec.mul tick (Dec.one - poolOrderPriceGapRatio pp tick) := mul_mono_left (by decide) (by omega) (by omega)
              have h3 : Dec.mul 1 995000000000000000 = 1 := by decide
              omega
            obtain ⟨l', e1, e2⟩ := ih { p with rx := p.rx - quoteCeil tick amt, ry := p.ry + amt } t
              (Dec.mul tick (Dec.one - poolOrderPriceGapRatio pp tick)) (acc ++ [(tick, amt)]) l
              (by simpa using le_of_lt hz) (by simp; omega)
              (fun _ => ⟨t3, by rw [← e']; exact down_le hmp prec⟩)
              (fun u hu _ hlt hus => by
                exfalso
                have := down_greatest hmp hu hus
                omega) h
            refine ⟨(tick, amt) :: l', by rw [e1]; simp, hT1, ht, hT2, hb, hamt, hS', .inr ⟨by omega, ?_⟩⟩
            rw [hq] at e2
            exact e2
          · rw [if_pos hz] at h
            have e : acc ++ [(tick, amt)] = l := by simpa using h
            exact ⟨[(tick, amt)], e.symm, hT1, ht, hT2, hb, hamt, hS', .inl ⟨by omega, rfl⟩⟩
    · rw [if_pos ht] at h
      have : acc = l := by simpa using h
      subst this
      exact ⟨[], by simp, fun u hu hlu hus => hS u hu hlu (by omega) hus⟩

theorem sellLoop_ladder (prec : Nat) {pp highest : Int} (hpp : 0 ≤ pp) :
    ∀ (fuel : Nat) (p : Pool) (tick start : Int) (acc l : List (Int × Int)), (p.range = none → 0 ≤ p.rx) → 0 ≤ p.ry →
      0 < tick → (IsTick prec tick ∧ start ≤ tick) →
      (∀ u, IsTick prec u → start ≤ u → u < tick →
        ∃ b, p.sellAmountUnder u = some b ∧ (b < 100 ∨ quoteDown u b = 0)) →
      sellLoop prec pp highest fuel p tick acc = .done l →
      ∃ l', l = acc ++ l' ∧ SellLadder prec pp highest p start l' := by
  intro fuel
  induction fuel with
  | zero => intro p tick start acc l _ _ _ _ _ h; simp [sellLoop] at h
  | succ n ih =>
    intro p tick start acc l hrx hry htp hT hS h
    obtain ⟨hT1, hT2⟩ := hT
    rw [sellLoop] at h
    by_cases ht : tick ≤ highest
    · rw [if_neg (by omega)] at h
      cases hb : p.sellAmountUnder tick with
      | none => rw [hb] at h; simp at h
      | some amt =>
        rw [hb] at h
        simp only at h
        obtain ⟨a0, a1, a2⟩ := sellAmountUnder_facts hry hrx hb
        have hnn : 0 ≤ tick * amt := Int.mul_nonneg (le_of_lt htp) a0
        have hq := quoteDown_eq hnn
        by_cases hm : amt < minCoinAmount ∨ quoteFloor tick amt = 0
        · rw [if_pos hm] at h
          have hu := isNext_up htp prec
          refine ih p (upTick tick prec) start acc l hrx hry (by have := hu.2.1; omega)
            ⟨hu.1, by have := hu.2.1; omega⟩ (fun u hu' hsu hlt => ?_) h
          by_cases hc : u < tick
          · exact hS u hu' hsu hc
          · by_cases he : u = tick
            · subst he
              rw [hq] at hm
              exact ⟨amt, hb, hm⟩
            · have := hu.2.2 u hu' (by omega)
              omega
        · rw [if_neg hm] at h
          push Not at hm
          have hamt : 100 ≤ amt := hm.1
          have hn := (quoteFloor_facts hnn).2.2
          have hqpos : 0 < quoteFloor tick amt := by have := hm.2; omega
          have hrx' : (afterSell p tick amt).1 = p.rx + quoteFloor tick amt := rfl
          have hry' : (afterSell p tick amt).2 = p.ry - amt := rfl
          simp only [hrx', hry'] at h
          by_cases hz : p.ry - amt > minCoinAmount
          · rw [if_neg (by omega)] at h
            obtain ⟨t, e, t2, t3⟩ := @nextSell tick _ prec htp (@gapSell pp tick hpp)
            rw [e] at h
            simp only at h
            have e' := up?_some e
            have hmp : 0 < Dec.mul tick (Dec.one + poolOrderPriceGapRatio pp tick) := by
              have h2 : tick ≤ Dec.mul tick (Dec.one + poolOrderPriceGapRatio pp tick) := by
                calc tick = Dec.mul tick one := (mul_one_dec tick).symm
                  _ ≤ _ := mul_mono_right (by omega) (by decide) (@gapSell pp tick hpp)
              omega
            have hup := isCeil_up hmp prec
            obtain ⟨l', e1, e2⟩ := ih { p with rx := p.rx + quoteFloor tick amt, ry := p.ry - amt } t
              (Dec.mul tick (Dec.one + poolOrderPriceGapRatio pp tick)) (acc ++ [(tick, amt)]) l
              (fun hr => by
                have hr : p.range = none := hr
                have := hrx hr
                show 0 ≤ p.rx + quoteFloor tick amt
                omega) (by show 0 ≤ p.ry - amt; omega) (by omega)
              ⟨t3, by rw [← e']; exact hup.2.1⟩
              (fun u hu hsu hlt => by
                exfalso
                have := hup.2.2 u hu hsu
                omega) h
            refine ⟨(tick, amt) :: l', by rw [e1]; simp, hT1, hT2, ht, hb, hamt, by omega, hS, .inr ⟨hz, ?_⟩⟩
            rw [hq] at e2
            exact e2
          · rw [if_pos hz] at h
            have e : acc ++ [(tick, amt)] = l := by simpa using h
            exact ⟨[(tick, amt)], e.symm, hT1, hT2, ht, hb, hamt, by omega, hS,
              .inl ⟨by unfold minCoinAmount at hz; omega, rfl⟩⟩
    · rw [if_pos ht] at h
      have : acc = l := by simpa using h
      subst this
      exact ⟨[], by simp, fun u hu hsu hle => hS u hu hsu (by omega)⟩

theorem basic_price {p : Pool} (hr : p.range = none) (hrx : 0 < p.rx) (hry : 0 < p.ry) : ∃ pp, p.price = some pp ∧ 0 ≤ pp := by
  have h : ∃ pp, p.price = some pp := by
    unfold Pool.price
    rw [hr]
    simp only
    rw [if_neg (by omega)]
    unfold quo?
    rw [if_neg (by unfold ofInt; have := Int.mul_pos hry one_pos'; omega)]
    exact ⟨_, rfl⟩
  obtain ⟨pp, h⟩ := h
  refine ⟨pp, h, sound_price (p := p) ⟨by omega, by omega, ?_, ?_, ?_⟩ h⟩
  · unfold Pool.transX; rw [hr]
  · unfold Pool.transY; rw [hr]
  · intro r e; rw [hr] at e; simp at e

/-- The loops of a basic pool never panic. -/
theorem buyLoop_no_panic (prec : Nat) {pp lowest : Int} (hpp : 0 ≤ pp) (hlow : 0 < lowest) :
    ∀ (fuel : Nat) (p : Pool) (tick : Int) (acc : List (Int × Int)), p.range = none → 0 < p.rx → 0 < p.ry →
      buyLoop prec pp lowest fuel p tick acc ≠ .panic := by
  intro fuel
  induction fuel with
  | zero => intro p tick acc _ _ _; simp [buyLoop]
  | succ n ih =>
    intro p tick acc hr hrx hry
    rw [buyLoop]
    by_cases ht : tick ≥ lowest
    · rw [if_neg (by omega)]
      have htp : 0 < tick := by omega
      obtain ⟨q, hq, _⟩ := basic_price hr hrx hry
      have hb := buy_eq (le_of_lt hrx) hq htp
      generalize (if q ≤ max tick p.floorPrice ∨ p.dx (max tick p.floorPrice) ≤ 0 then 0
        else min (p.dx (max tick p.floorPrice) / tick) maxCoinAmount) = amt at hb
      rw [hb]
      simp only
      obtain ⟨ha0, hac⟩ := buyAmountOver_facts (le_of_lt hrx) (le_of_lt hry) htp hb
      by_cases hm : amt < minCoinAmount
      · rw [if_pos hm]
        exact ih _ _ _ hr hrx hry
      · rw [if_neg hm]
        have hrx' : (afterBuy p tick amt).1 = p.rx - quoteCeil tick amt := rfl
        have hry' : (afterBuy p tick amt).2 = p.ry + amt := rfl
        simp only [hrx', hry']
        by_cases hz : 0 < p.rx - quoteCeil tick amt
        · rw [if_neg (by omega)]
          obtain ⟨g1, g2⟩ := @gapBuy pp tick hpp
          obtain ⟨t, e, t1, t2, t3⟩ := @nextBuy tick _ prec htp g1 g2
          rw [e]
          simp only
          exact ih _ _ _ hr (by simpa using hz) (by simp; omega)
        · rw [if_pos hz]; simp
    · rw [if_pos ht]; simp

theorem sellLoop_no_panic (prec : Nat) {pp highest : Int} (hpp : 0 ≤ pp) :
    ∀ (fuel : Nat) (p : Pool) (tick : Int) (acc : List (Int × Int)), p.range = none → 0 < p.rx → 0 < p.ry → 0 < tick →
      sellLoop prec pp highest fuel p tick acc ≠ .panic := by
  intro fuel
  induction fuel with
  | zero => intro p tick acc _ _ _ _; simp [sellLoop]
  | succ n ih =>
    intro p tick acc hr hrx hry htp
    rw [sellLoop]
    by_cases ht : tick ≤ highest
    · rw [if_neg (by omega)]
      obtain ⟨q, hq, hq0⟩ := basic_price hr hrx hry
      have hb := sell_eq (op := tick) hq hq0
      generalize (if min tick p.ceilPrice ≤ q then 0 else max (p.dy (min tick p.ceilPrice)) 0) = amt at hb
      rw [hb]
      simp only
      obtain ⟨a0, a1, a2⟩ := sellAmountUnder_facts (le_of_lt hry) (fun _ => le_of_lt hrx) hb
      by_cases hm : amt < minCoinAmount ∨ quoteFloor tick amt = 0
      · rw [if_pos hm]
        exact ih _ _ _ hr hrx hry (by have := upTick_gt htp prec; omega)
      · rw [if_neg hm]
        have hn := (quoteFloor_facts (Int.mul_nonneg (le_of_lt htp) a0)).2.2
        have hrx' : (afterSell p tick amt).1 = p.rx + quoteFloor tick amt := rfl
        have hry' : (afterSell p tick amt).2 = p.ry - amt := rfl
        simp only [hrx', hry']
        by_cases hz : p.ry - amt > minCoinAmount
        · rw [if_neg (by omega)]
          obtain ⟨t, e, t2, t3⟩ := @nextSell tick _ prec htp (@gapSell pp tick hpp)
          rw [e]
          simp only
          exact ih _ _ _ hr (by show 0 < p.rx + _; omega) (by show 0 < p.ry - amt; unfold minCoinAmount at hz; omega) (by omega)
        · rw [if_pos hz]; simp
    · rw [if_pos ht]; simp

end Verif.Amm

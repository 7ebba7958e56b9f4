import Verif.Proofs.PoolLoop
/-! The sell side of the order generation (x/dex/amm/pool.go:633-672). -/
namespace Verif.Amm
open Verif Verif.Dec

/-- Base coins offered by a list of (price, amount) sells. -/
def sellCost (l : List (Int × Int)) : Int := (l.map (fun o => o.2)).sum

theorem sellLoop_sum (prec : Nat) {pp highest : Int} :
    ∀ (fuel : Nat) (p : Pool) (tick : Int) (acc : List (Int × Int)), (p.range = none → 0 ≤ p.rx) → 0 ≤ p.ry →
      ∀ l, sellLoop prec pp highest fuel p tick acc = .done l → sellCost l ≤ sellCost acc + p.ry := by
  intro fuel
  induction fuel with
  | zero => intro p tick acc _ _ l h; simp [sellLoop] at h
  | succ n ih =>
    intro p tick acc hrx hry l h
    rw [sellLoop] at h
    split at h
    · have : acc = l := by simpa using h
      subst this; omega
    · cases hb : p.sellAmountUnder tick with
      | none => rw [hb] at h; simp at h
      | some amt =>
        rw [hb] at h
        simp only at h
        obtain ⟨a0, a1, a2⟩ := sellAmountUnder_facts hry hrx hb
        split at h
        · exact ih p _ acc hrx hry l h
        · rename_i hm
          have hamt : 100 ≤ amt := by unfold minCoinAmount at hm; omega
          have hrx' : (afterSell p tick amt).1 = p.rx + quoteFloor tick amt := rfl
          have hry' : (afterSell p tick amt).2 = p.ry - amt := rfl
          simp only [hrx', hry'] at h
          have hs : sellCost (acc ++ [(tick, amt)]) = sellCost acc + amt := by simp [sellCost]
          split at h
          · have : acc ++ [(tick, amt)] = l := by simpa using h
            rw [← this, hs]; omega
          · split at h
            · simp at h
            · rename_i t _
              have := ih { p with rx := p.rx + quoteFloor tick amt, ry := p.ry - amt } t (acc ++ [(tick, amt)])
                (fun hr => by
                  have hr : p.range = none := hr
                  have hn := (quoteFloor_facts (Int.mul_nonneg (le_of_lt (a2 hr (by omega))) a0 : 0 ≤ tick * amt)).2.2
                  have := hrx hr
                  show 0 ≤ p.rx + quoteFloor tick amt
                  omega) (by show 0 ≤ p.ry - amt; omega) l h
              rw [hs] at this
              simp only at this
              omega

theorem gapSell {pp tick : Int} (h : 0 ≤ pp) : one ≤ one + poolOrderPriceGapRatio pp tick := by
  have := @gap_bounds pp tick h
  omega

theorem upTick_gt {t : Int} (h : 0 < t) (prec : Nat) : t < upTick t prec := (isNext_up h prec).2.1

theorem sellLoop_spec (prec : Nat) {pp highest : Int} (hpp : 0 ≤ pp) :
    ∀ (fuel : Nat) (p : Pool) (tick : Int) (acc : List (Int × Int)), (p.range = none → 0 ≤ p.rx) → 0 ≤ p.ry → 0 < tick →
      (highest + 1 - tick).toNat + p.ry.toNat < fuel →
      sellLoop prec pp highest fuel p tick acc ≠ .outOfFuel ∧
      ∀ l, sellLoop prec pp highest fuel p tick acc = .done l → ∃ l', l = acc ++ l' ∧
        (∀ o ∈ l', tick ≤ o.1 ∧ o.1 ≤ highest ∧ minCoinAmount ≤ o.2 ∧ 0 < quoteFloor o.1 o.2) ∧
        l'.Pairwise (fun a b => a.1 ≤ b.1) := by
  intro fuel
  induction fuel with
  | zero => intro p tick acc _ _ _ h; omega
  | succ n ih =>
    intro p tick acc hrx hry htp hf
    rw [sellLoop]
    by_cases ht : tick ≤ highest
    · rw [if_neg (by omega)]
      cases hb : p.sellAmountUnder tick with
      | none => simp
      | some amt =>
        simp only
        obtain ⟨a0, a1, a2⟩ := sellAmountUnder_facts hry hrx hb
        by_cases hm : amt < minCoinAmount ∨ quoteFloor tick amt = 0
        · rw [if_pos hm]
          have hu := upTick_gt htp prec
          obtain ⟨i1, i2⟩ := ih p (upTick tick prec) acc hrx hry (by omega) (by omega)
          refine ⟨i1, fun l hl => ?_⟩
          obtain ⟨l', e1, e3, e4⟩ := i2 l hl
          exact ⟨l', e1, fun o ho => ⟨by have := (e3 o ho).1; omega, (e3 o ho).2⟩, e4⟩
        · rw [if_neg hm]
          push Not at hm
          have hamt : 100 ≤ amt := hm.1
          have hn := (quoteFloor_facts (Int.mul_nonneg (le_of_lt htp) a0 : 0 ≤ tick * amt)).2.2
          have hqpos : 0 < quoteFloor tick amt := by have := hm.2; omega
          have hrx' : (afterSell p tick amt).1 = p.rx + quoteFloor tick amt := rfl
          have hry' : (afterSell p tick amt).2 = p.ry - amt := rfl
          simp only [hrx', hry']
          have self : tick ≤ (tick, amt).1 ∧ (tick, amt).1 ≤ highest ∧ minCoinAmount ≤ (tick, amt).2 ∧
              0 < quoteFloor (tick, amt).1 (tick, amt).2 := ⟨le_refl _, ht, hm.1, hqpos⟩
          by_cases hz : p.ry - amt > minCoinAmount
          · rw [if_neg (by omega)]
            obtain ⟨t, e, t2, t3⟩ := @nextSell tick _ prec htp (@gapSell pp tick hpp)
            rw [e]
            simp only
            obtain ⟨i1, i2⟩ := ih { p with rx := p.rx + quoteFloor tick amt, ry := p.ry - amt } t (acc ++ [(tick, amt)])
              (fun hr => by
                have hr : p.range = none := hr
                have := hrx hr
                show 0 ≤ p.rx + quoteFloor tick amt
                omega) (by show 0 ≤ p.ry - amt; omega) (by omega) (by simp only; omega)
            refine ⟨i1, fun l hl => ?_⟩
            obtain ⟨l', e1, e3, e4⟩ := i2 l hl
            refine ⟨(tick, amt) :: l', by rw [e1]; simp, ?_, ?_⟩
            · intro o ho
              rcases List.mem_cons.1 ho with rfl | ho
              · exact self
              · exact ⟨by have := (e3 o ho).1; omega, (e3 o ho).2⟩
            · refine List.pairwise_cons.2 ⟨fun o ho => ?_, e4⟩
              have := (e3 o ho).1
              show tick ≤ o.1
              omega
          · rw [if_pos hz]
            refine ⟨by simp, fun l hl => ?_⟩
            have : acc ++ [(tick, amt)] = l := by simpa using hl
            refine ⟨[(tick, amt)], this.symm, ?_, by simp⟩
            intro o ho; simp at ho; subst ho; exact self
    · rw [if_pos ht]
      refine ⟨by simp, fun l hl => ?_⟩
      have : acc = l := by simpa using hl
      exact ⟨[], by simp [this], by simp, List.Pairwise.nil⟩

theorem sellFirst_facts {sqrt : Int → Int} (hs : ∀ d, 0 ≤ d → 0 ≤ sqrt d) {p p' : Pool} {pp lowest : Int}
    {acc : List (Int × Int)} (hrx : p.range = none → 0 ≤ p.rx) (hry : 0 ≤ p.ry) (hlow : 0 < lowest)
    (h : sellFirst sqrt p pp lowest = some (p', acc)) :
    (p'.range = none → 0 ≤ p'.rx) ∧ 0 ≤ p'.ry ∧ sellCost acc + p'.ry = p.ry ∧
      (∀ o ∈ acc, o.1 = lowest ∧ pp < lowest ∧ minCoinAmount ≤ o.2 ∧ 0 < quoteFloor o.1 o.2) ∧ acc.length ≤ 1 ∧
      (¬ pp < lowest → p' = p) := by
  unfold sellFirst at h
  split at h
  · rename_i hlt
    cases hb : p.sellAmountTo sqrt lowest with
    | none => rw [hb] at h; simp at h
    | some amt =>
      rw [hb] at h
      simp only [Option.bind_eq_bind, Option.bind_some] at h
      obtain ⟨a0, a1⟩ := sellAmountTo_facts hs hry hrx hb
      split at h
      · rename_i hm
        cases hsb : p.setBalances sqrt (afterSell p lowest amt).1 (afterSell p lowest amt).2 true with
        | none => rw [hsb] at h; simp at h
        | some q =>
          rw [hsb] at h
          simp only [Option.bind_some] at h
          have h : some (q, [(lowest, amt)]) = some (p', acc) := h
          simp only [Option.some.injEq, Prod.mk.injEq] at h
          obtain ⟨rfl, rfl⟩ := h
          obtain ⟨s1, s2, _, s3, _⟩ := setBalances_facts hsb
          have r1 : (afterSell p lowest amt).1 = p.rx + quoteFloor lowest amt := rfl
          have r2 : (afterSell p lowest amt).2 = p.ry - amt := rfl
          rw [r1] at s1; rw [r2] at s2
          refine ⟨fun hr => by have := hrx (s3.2 hr); omega, by omega, by simp [sellCost]; omega, ?_, by simp,
            fun h => absurd hlt h⟩
          intro o ho
          simp at ho
          subst ho
          exact ⟨rfl, hlt, hm.1, hm.2⟩
      · have h : some (p, ([] : List (Int × Int))) = some (p', acc) := h
        simp only [Option.some.injEq, Prod.mk.injEq] at h
        obtain ⟨rfl, rfl⟩ := h
        exact ⟨hrx, hry, by simp [sellCost], by simp, by simp, fun _ => rfl⟩
  · simp only [Option.some.injEq, Prod.mk.injEq] at h
    obtain ⟨rfl, rfl⟩ := h
    exact ⟨hrx, hry, by simp [sellCost], by simp, by simp, fun _ => rfl⟩

/-- The amounts of `PoolSellOrders` fit the base reserve. -/
theorem poolSell_sum {sqrt : Int → Int} (hs : ∀ d, 0 ≤ d → 0 ≤ sqrt d) {p : Pool} {lowest highest : Int} {prec : Nat}
    (hrx : p.range = none → 0 ≤ p.rx) (hry : 0 ≤ p.ry) (hlow : 0 < lowest) :
    ∀ l, poolSellOrdersRaw sqrt p lowest highest prec = .done l → sellCost l ≤ p.ry := by
  intro l hl
  unfold poolSellOrdersRaw at hl
  cases hp : p.price with
  | none => rw [hp] at hl; simp at hl
  | some pp =>
    rw [hp] at hl
    simp only at hl
    split at hl
    · have : l = [] := by simpa using hl.symm
      subst this
      simpa [sellCost] using hry
    · cases hf : sellFirst sqrt p pp lowest with
      | none => rw [hf] at hl; simp at hl
      | some r =>
        obtain ⟨p', acc⟩ := r
        rw [hf] at hl
        simp only at hl
        obtain ⟨f1, f2, f3, f4, f5, f6⟩ := sellFirst_facts hs hrx hry hlow hf
        split at hl
        · simp at hl
        · split at hl
          · simp at hl
          · have := sellLoop_sum prec _ p' _ acc f1 f2 l hl
            omega

/-- Window, minimum amount, order and termination of `PoolSellOrders` for a pool with a non-negative price. -/
theorem poolSell_gen {sqrt : Int → Int} (hs : ∀ d, 0 ≤ d → 0 ≤ sqrt d) {p : Pool} {lowest highest : Int} {prec : Nat}
    (hrx : p.range = none → 0 ≤ p.rx) (hry : 0 ≤ p.ry) (hlow : 0 < lowest)
    (hpp : ∀ pp, p.price = some pp → 0 ≤ pp) :
    poolSellOrdersRaw sqrt p lowest highest prec ≠ .outOfFuel ∧
    ∀ l, poolSellOrdersRaw sqrt p lowest highest prec = .done l →
      (∀ o ∈ l, lowest ≤ o.1 ∧ (lowest ≤ highest → o.1 ≤ highest) ∧ minCoinAmount ≤ o.2 ∧ 0 < quoteFloor o.1 o.2) ∧
      l.Pairwise (fun a b => a.1 ≤ b.1) ∧ (∀ pp, p.price = some pp → ∀ o ∈ l, pp ≤ o.1) := by
  unfold poolSellOrdersRaw
  cases hp : p.price with
  | none => simp
  | some pp =>
    simp only
    have hpn := hpp pp hp
    by_cases hle : pp ≥ highest
    · rw [if_pos hle]
      refine ⟨by simp, fun l hl => ?_⟩
      have : l = [] := by simpa using hl.symm
      subst this
      simp
    · rw [if_neg hle]
      cases hf : sellFirst sqrt p pp lowest with
      | none => simp
      | some r =>
        obtain ⟨p', acc⟩ := r
        simp only
        obtain ⟨f1, f2, f3, f4, f5, f6⟩ := sellFirst_facts hs hrx hry hlow hf
        cases hp' : p'.price with
        | none => simp
        | some pp' =>
          simp only
          have hmp : 0 < max lowest pp' := lt_of_lt_of_le hlow (le_max_left _ _)
          have ht : priceToUpTick? (max lowest pp') prec = some (priceToUpTick (max lowest pp') prec) := by
            unfold priceToUpTick?; rw [if_neg (by omega)]
          rw [ht]
          simp only
          have hup := (isCeil_up hmp prec).2.1
          generalize hge : priceToUpTick (max lowest pp') prec = tick at *
          have m1 : lowest ≤ tick := le_trans (le_max_left _ _) hup
          have m2 : pp' ≤ tick := le_trans (le_max_right _ _) hup
          obtain ⟨b1, b2⟩ := sellLoop_spec prec (highest := highest) hpn (sellFuel p' tick highest) p' tick acc f1 f2 (by omega)
            (by unfold sellFuel; omega)
          refine ⟨b1, fun l hl => ?_⟩
          obtain ⟨l', e1, e3, e4⟩ := b2 l hl
          subst e1
          have hpl : ∀ o ∈ l', pp ≤ o.1 := by
            intro o ho
            have := (e3 o ho).1
            by_cases hc : pp < lowest
            · omega
            · have := f6 hc
              subst this
              rw [hp] at hp'
              simp only [Option.some.injEq] at hp'
              omega
          refine ⟨?_, ?_, ?_⟩
          · intro o ho
            rcases List.mem_append.1 ho with ho | ho
            · obtain ⟨g1, g2, g3⟩ := f4 o ho
              exact ⟨by omega, fun _ => by omega, g3⟩
            · obtain ⟨g1, g2, g3⟩ := e3 o ho
              exact ⟨by omega, fun _ => g2, g3⟩
          · refine List.pairwise_append.2 ⟨?_, e4, ?_⟩
            · match acc, f5 with
              | [], _ => exact List.Pairwise.nil
              | [_], _ => simp
            · intro a ha b hb
              have := (f4 a ha).1
              have := (e3 b hb).1
              omega
          · intro q hq o ho
            simp only [Option.some.injEq] at hq
            subst hq
            rcases List.mem_append.1 ho with ho | ho
            · obtain ⟨g1, g2, g3⟩ := f4 o ho; omega
            · exact hpl o ho

/-- The same for a proper window. -/
theorem poolSell_spec {sqrt : Int → Int} (hs : ∀ d, 0 ≤ d → 0 ≤ sqrt d) {p : Pool} {lowest highest : Int} {prec : Nat}
    (hrx : p.range = none → 0 ≤ p.rx) (hry : 0 ≤ p.ry) (hlow : 0 < lowest) (hlh : lowest ≤ highest)
    (hpp : ∀ pp, p.price = some pp → 0 ≤ pp) :
    poolSellOrdersRaw sqrt p lowest highest prec ≠ .outOfFuel ∧
    ∀ l, poolSellOrdersRaw sqrt p lowest highest prec = .done l →
      (∀ o ∈ l, lowest ≤ o.1 ∧ o.1 ≤ highest ∧ minCoinAmount ≤ o.2 ∧ 0 < quoteFloor o.1 o.2) ∧
      l.Pairwise (fun a b => a.1 ≤ b.1) ∧ (∀ pp, p.price = some pp → ∀ o ∈ l, pp ≤ o.1) := by
  obtain ⟨h0, h⟩ := poolSell_gen hs (prec := prec) (highest := highest) hrx hry hlow hpp
  refine ⟨h0, fun l hl => ?_⟩
  obtain ⟨a, b⟩ := h l hl
  exact ⟨fun o ho => ⟨(a o ho).1, (a o ho).2.1 hlh, (a o ho).2.2⟩, b⟩

/-- Constant product after a completely filled buy of a basic pool. -/
theorem product_buy {p : Pool} {op amt : Int} (hr : p.range = none) (hrx : 0 ≤ p.rx) (hry : 0 ≤ p.ry) (hop : 0 < op)
    (h : p.buyAmountOver op = some amt) (hamt : 0 < amt) :
    p.rx * p.ry - (p.ry + amt) < (p.rx - quoteCeil op amt) * (p.ry + amt) := by
  -- op * (Y + a) ≤ X
  have key : op * (p.ry + amt) ≤ p.rx * one := by
    unfold Pool.buyAmountOver at h
    simp only [hr] at h
    obtain ⟨hp0, hp1⟩ := @maxop op p.floorPrice hop
    generalize hg : (if op < p.floorPrice then p.floorPrice else op) = price at *
    cases hpp : p.price with
    | none => rw [hpp] at h; simp at h
    | some pp =>
      rw [hpp] at h
      simp only at h
      split at h
      · simp only [Option.some.injEq] at h; omega
      · split at h
        · simp only [Option.some.injEq] at h; omega
        · rename_i hdx
          push Not at hdx
          obtain ⟨k1, k2⟩ := cappedQuo_facts (le_of_lt hdx) hop h
          unfold ofInt mulInt at k2
          have : op * p.ry ≤ price * p.ry := Int.mul_le_mul_of_nonneg_right hp1 hry
          nlinarith
  have hn : 0 ≤ op * amt := Int.mul_nonneg (le_of_lt hop) (le_of_lt hamt)
  obtain ⟨q1, q2, q3⟩ := quoteCeil_facts hn
  have ho := one_pos'
  have hY : 0 < p.ry + amt := by omega
  have c1 : (p.rx * one - op * amt - one) * (p.ry + amt) < (p.rx - quoteCeil op amt) * one * (p.ry + amt) :=
    Int.mul_lt_mul_of_pos_right (by nlinarith) hY
  have c2 : 0 ≤ amt * (p.rx * one - op * (p.ry + amt)) := Int.mul_nonneg (le_of_lt hamt) (by omega)
  have c3 : (p.rx * p.ry - (p.ry + amt)) * one < ((p.rx - quoteCeil op amt) * (p.ry + amt)) * one := by nlinarith
  exact lt_of_mul_lt_mul_right c3 (le_of_lt ho)

/-- Constant product after a completely filled sell of a basic pool. -/
theorem product_sell {p : Pool} {op amt : Int} (hr : p.range = none) (hrx : 0 ≤ p.rx) (hry : 0 ≤ p.ry)
    (h : p.sellAmountUnder op = some amt) (hamt : 0 < amt) :
    p.rx * p.ry - (p.ry - amt) ≤ (p.rx + quoteFloor op amt) * (p.ry - amt) := by
  have hle := (sellAmountUnder_facts hry (fun _ => hrx) h)
  have hop := hle.2.2 hr hamt
  -- X ≤ op * (Y - a)
  have key : p.rx * one ≤ op * (p.ry - amt) := by
    unfold Pool.sellAmountUnder at h
    simp only [hr] at h
    have hcp := ceilPrice_pos_basic hr
    have hpl : (if op > p.ceilPrice then p.ceilPrice else op) ≤ op := by split <;> omega
    have hp0 : 0 < (if op > p.ceilPrice then p.ceilPrice else op) := by split <;> omega
    generalize hg : (if op > p.ceilPrice then p.ceilPrice else op) = price at *
    cases hpp : p.price with
    | none => rw [hpp] at h; simp at h
    | some pp =>
      rw [hpp] at h
      simp only at h
      split at h
      · simp only [Option.some.injEq] at h; omega
      · split at h
        · simp at h
        · simp only [Option.some.injEq] at h
          split at h
          · omega
          · rename_i hpos
            push Not at hpos
            obtain ⟨t1, t2⟩ := truncateInt_mul_le hpos
            rw [h] at t1
            have hrn : 0 ≤ ofInt p.rx := Int.mul_nonneg hrx (le_of_lt one_pos')
            obtain ⟨u1, u2, u3⟩ := quoRoundUp_nn hrn hp0
            have v1 : quoRoundUp (ofInt p.rx) price ≤ (p.ry - amt) * one := by
              have : (p.ry - amt) * one = ofInt p.ry - amt * one := by unfold ofInt; ring
              omega
            have v2 : ofInt p.rx * one ≤ (p.ry - amt) * one * price :=
              le_trans u1 (Int.mul_le_mul_of_nonneg_right v1 (le_of_lt hp0))
            have v3 : (p.ry - amt) * price ≤ (p.ry - amt) * op := Int.mul_le_mul_of_nonneg_left hpl (by omega)
            have v4 : (p.rx * one) * one ≤ (op * (p.ry - amt)) * one := by
              unfold ofInt at v2
              have ho := one_pos'
              nlinarith
            exact le_of_mul_le_mul_right v4 one_pos'
  have hn : 0 ≤ op * amt := Int.mul_nonneg (le_of_lt hop) (le_of_lt hamt)
  obtain ⟨q1, q2, q3⟩ := quoteFloor_facts hn
  have ho := one_pos'
  have hY : 0 ≤ p.ry - amt := by omega
  have c1 : (p.rx * one + op * amt - one) * (p.ry - amt) ≤ (p.rx + quoteFloor op amt) * one * (p.ry - amt) :=
    Int.mul_le_mul_of_nonneg_right (by nlinarith) hY
  have c2 : 0 ≤ amt * (op * (p.ry - amt) - p.rx * one) := Int.mul_nonneg (le_of_lt hamt) (by omega)
  have c3 : (p.rx * p.ry - (p.ry - amt)) * one ≤ ((p.rx + quoteFloor op amt) * (p.ry - amt)) * one := by nlinarith
  exact le_of_mul_le_mul_right c3 ho

end Verif.Amm

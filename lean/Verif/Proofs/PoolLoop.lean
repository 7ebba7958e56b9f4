import Verif.Proofs.Pool
import Mathlib.Data.List.Pairwise
/-! The order generation loops (x/dex/amm/pool.go:592-672). -/
namespace Verif.Amm
open Verif Verif.Dec

/-- Quote coins needed by a list of (price, amount) buys. -/
def buyCost (l : List (Int × Int)) : Int := (l.map (fun o => quoteCeil o.1 o.2)).sum

theorem downTick_facts {t : Int} (h : 0 < t) (prec : Nat) : 0 ≤ downTick t prec ∧ downTick t prec < t ∧
    (0 < downTick t prec → Spec.IsTick prec (downTick t prec)) := by
  by_cases h1 : 1 < t
  · have := isPrev_down h1 prec
    have hp := isTick_pos this.1
    exact ⟨le_of_lt hp, this.2.1, fun _ => this.1⟩
  · have : t = 1 := by omega
    subst this
    have : downTick 1 prec = 0 := by
      have e : priceToDownTick 1 prec = 1 := by
        unfold priceToDownTick
        have : char 1 = 0 := by decide
        rw [this]
        simp
      have hc : char 1 = 0 := by decide
      have hi : isPow10 1 = true := by decide
      unfold downTick
      simp only [e, hc, hi, if_true]
      have : pow10 (((0 : Nat) : Int) - (prec : Int) - 1) = 1 := by
        unfold pow10
        have : (((0 : Nat) : Int) - (prec : Int) - 1).toNat = 0 := by omega
        rw [this]; rfl
      rw [this]; rfl
    rw [this]
    exact ⟨le_refl _, by omega, fun h => by omega⟩

/-- Result of a generation loop started with orders `acc`. -/
structure BuyOut (lowest tick rx : Int) (acc l : List (Int × Int)) : Prop where
  ex : ∃ l', l = acc ++ l' ∧ buyCost l' ≤ rx ∧
    (∀ o ∈ l', lowest ≤ o.1 ∧ o.1 ≤ tick ∧ minCoinAmount ≤ o.2) ∧ l'.Pairwise (fun a b => b.1 ≤ a.1)

theorem gapBuy {pp tick : Int} (h : 0 ≤ pp) :
    995000000000000000 ≤ one - poolOrderPriceGapRatio pp tick ∧ one - poolOrderPriceGapRatio pp tick ≤ one := by
  have := @gap_bounds pp tick h
  have : one = 1000000000000000000 := rfl
  omega

theorem buyLoop_spec (prec : Nat) {pp lowest : Int} (hpp : 0 ≤ pp) (hlow : 0 < lowest) :
    ∀ (fuel : Nat) (p : Pool) (tick : Int) (acc : List (Int × Int)), 0 ≤ p.rx → 0 ≤ p.ry →
      tick.toNat + p.rx.toNat < fuel →
      buyLoop prec pp lowest fuel p tick acc ≠ .outOfFuel ∧
      ∀ l, buyLoop prec pp lowest fuel p tick acc = .done l → BuyOut lowest tick p.rx acc l := by
  intro fuel
  induction fuel with
  | zero => intro p tick acc _ _ h; omega
  | succ n ih =>
    intro p tick acc hrx hry hf
    rw [buyLoop]
    have triv : BuyOut lowest tick p.rx acc acc :=
      ⟨⟨[], by simp, by simpa [buyCost] using hrx, by simp, List.Pairwise.nil⟩⟩
    by_cases ht : tick ≥ lowest
    · rw [if_neg (by omega)]
      have htp : 0 < tick := by omega
      cases hb : p.buyAmountOver tick with
      | none => simp
      | some amt =>
        simp only
        obtain ⟨ha0, hac⟩ := buyAmountOver_facts hrx hry htp hb
        by_cases hm : amt < minCoinAmount
        · rw [if_pos hm]
          obtain ⟨d0, d1, _⟩ := downTick_facts htp prec
          obtain ⟨i1, i2⟩ := ih p (downTick tick prec) acc hrx hry (by omega)
          refine ⟨i1, fun l hl => ?_⟩
          obtain ⟨l', e1, e2, e3, e4⟩ := (i2 l hl).ex
          exact ⟨⟨l', e1, e2, fun o ho => ⟨(e3 o ho).1, by have := (e3 o ho).2.1; omega, (e3 o ho).2.2⟩, e4⟩⟩
        · rw [if_neg hm]
          have hamt : 100 ≤ amt := by unfold minCoinAmount at hm; omega
          have hpos : 0 < tick * amt := Int.mul_pos htp (by omega)
          obtain ⟨q1, q2, q3⟩ := quoteCeil_facts (le_of_lt hpos)
          have qle : quoteCeil tick amt ≤ p.rx := quoteCeil_le (le_of_lt hpos) hac
          have qpos : 0 < quoteCeil tick amt := by
            rcases lt_or_eq_of_le q3 with h | h
            · exact h
            · rw [← h] at q1; simp at q1; omega
          have one' : BuyOut lowest tick p.rx acc (acc ++ [(tick, amt)]) :=
            ⟨⟨[(tick, amt)], rfl, by simpa [buyCost] using qle, by
              intro o ho; simp at ho; subst ho; exact ⟨ht, le_refl _, by omega⟩, by simp⟩⟩
          have hrx' : (afterBuy p tick amt).1 = p.rx - quoteCeil tick amt := rfl
          have hry' : (afterBuy p tick amt).2 = p.ry + amt := rfl
          simp only [hrx', hry']
          by_cases hz : 0 < p.rx - quoteCeil tick amt
          · rw [if_neg (by omega)]
            obtain ⟨g1, g2⟩ := @gapBuy pp tick hpp
            obtain ⟨t, e, t1, t2, t3⟩ := @nextBuy tick _ prec htp g1 g2
            rw [e]
            simp only
            obtain ⟨i1, i2⟩ := ih { p with rx := p.rx - quoteCeil tick amt, ry := p.ry + amt } t (acc ++ [(tick, amt)])
              (by simpa using le_of_lt hz) (by simp; omega) (by simp; omega)
            refine ⟨i1, fun l hl => ?_⟩
            obtain ⟨l', e1, e2, e3, e4⟩ := (i2 l hl).ex
            refine ⟨⟨(tick, amt) :: l', by rw [e1]; simp, ?_, ?_, ?_⟩⟩
            · have : buyCost ((tick, amt) :: l') = quoteCeil tick amt + buyCost l' := by simp [buyCost]
              rw [this]; simp at e2; omega
            · intro o ho
              rcases List.mem_cons.1 ho with rfl | ho
              · exact ⟨ht, le_refl _, by omega⟩
              · exact ⟨(e3 o ho).1, by have := (e3 o ho).2.1; omega, (e3 o ho).2.2⟩
            · refine List.pairwise_cons.2 ⟨fun o ho => ?_, e4⟩
              have := (e3 o ho).2.1
              show o.1 ≤ tick
              omega
          · rw [if_pos hz]
            refine ⟨by simp, fun l hl => ?_⟩
            have : acc ++ [(tick, amt)] = l := by simpa using hl
            rw [← this]; exact one'
    · rw [if_pos ht]
      refine ⟨by simp, fun l hl => ?_⟩
      have : acc = l := by simpa using hl
      rw [← this]; exact triv

theorem setBalances_facts {sqrt : Int → Int} {p p' : Pool} {a b : Int} {d : Bool} (h : p.setBalances sqrt a b d = some p') :
    p'.rx = a ∧ p'.ry = b ∧ p'.ps = p.ps ∧ (p.range = none ↔ p'.range = none) ∧
    p'.floorPrice = p.floorPrice ∧ p'.ceilPrice = p.ceilPrice := by
  unfold Pool.setBalances at h
  cases hr : p.range with
  | none =>
    rw [hr] at h
    simp only [Option.some.injEq] at h
    subst h
    simp [hr, Pool.floorPrice, Pool.ceilPrice]
  | some r =>
    rw [hr] at h
    simp only at h
    cases d with
    | false =>
      simp only [Bool.false_eq_true, if_false, Option.some.injEq] at h
      subst h
      simp [hr, Pool.floorPrice, Pool.ceilPrice]
    | true =>
      simp only [if_true, Option.bind_eq_bind] at h
      cases ht : deriveTranslation sqrt a b r.minPrice r.maxPrice with
      | none => rw [ht] at h; simp at h
      | some t =>
        rw [ht] at h
        simp only [Option.bind_some] at h
        have h : some ({ p with rx := a, ry := b, range := some { r with transX := t.1, transY := t.2 } } : Pool) = some p' := h
        simp only [Option.some.injEq] at h
        subst h
        simp [hr, Pool.floorPrice, Pool.ceilPrice]

theorem buyFirst_facts {sqrt : Int → Int} (hs : ∀ d, 0 ≤ d → 0 ≤ sqrt d) {p p' : Pool} {pp highest : Int}
    {acc : List (Int × Int)} (hrx : 0 ≤ p.rx) (hry : 0 ≤ p.ry) (hh : 0 < highest)
    (h : buyFirst sqrt p pp highest = some (p', acc)) :
    0 ≤ p'.rx ∧ 0 ≤ p'.ry ∧ buyCost acc + p'.rx = p.rx ∧
      (∀ o ∈ acc, o.1 = highest ∧ highest < pp ∧ minCoinAmount ≤ o.2) ∧ acc.length ≤ 1 ∧ (¬ highest < pp → p' = p) := by
  unfold buyFirst at h
  split at h
  · rename_i hlt
    cases hb : p.buyAmountTo sqrt highest with
    | none => rw [hb] at h; simp at h
    | some amt =>
      rw [hb] at h
      simp only [Option.bind_eq_bind, Option.bind_some] at h
      obtain ⟨a0, a1⟩ := buyAmountTo_facts hs hrx hry hh hb
      split at h
      · rename_i hm
        cases hsb : p.setBalances sqrt (afterBuy p highest amt).1 (afterBuy p highest amt).2 true with
        | none => rw [hsb] at h; simp at h
        | some q =>
          rw [hsb] at h
          simp only [Option.bind_some] at h
          have h : some (q, [(highest, amt)]) = some (p', acc) := h
          simp only [Option.some.injEq, Prod.mk.injEq] at h
          obtain ⟨rfl, rfl⟩ := h
          obtain ⟨s1, s2, _⟩ := setBalances_facts hsb
          have hn : 0 ≤ highest * amt := Int.mul_nonneg (le_of_lt hh) a0
          have qle := quoteCeil_le hn a1
          have r1 : (afterBuy p highest amt).1 = p.rx - quoteCeil highest amt := rfl
          have r2 : (afterBuy p highest amt).2 = p.ry + amt := rfl
          rw [r1] at s1; rw [r2] at s2
          refine ⟨by omega, by omega, by simp [buyCost]; omega, ?_, by simp, fun h => absurd hlt h⟩
          intro o ho
          simp at ho
          subst ho
          exact ⟨rfl, hlt, hm⟩
      · have h : some (p, ([] : List (Int × Int))) = some (p', acc) := h
        simp only [Option.some.injEq, Prod.mk.injEq] at h
        obtain ⟨rfl, rfl⟩ := h
        exact ⟨hrx, hry, by simp [buyCost], by simp, by simp, fun _ => rfl⟩
  · simp only [Option.some.injEq, Prod.mk.injEq] at h
    obtain ⟨rfl, rfl⟩ := h
    exact ⟨hrx, hry, by simp [buyCost], by simp, by simp, fun _ => rfl⟩

/-- Everything about `PoolBuyOrders`. -/
theorem poolBuy_gen {sqrt : Int → Int} (hs : ∀ d, 0 ≤ d → 0 ≤ sqrt d) {p : Pool} {lowest highest : Int} {prec : Nat}
    (hrx : 0 ≤ p.rx) (hry : 0 ≤ p.ry) (hlow : 0 < lowest) (hlh : 0 < highest) :
    poolBuyOrdersRaw sqrt p lowest highest prec ≠ .outOfFuel ∧
    ∀ l, poolBuyOrdersRaw sqrt p lowest highest prec = .done l →
      buyCost l ≤ p.rx ∧ (∀ o ∈ l, (lowest ≤ highest → lowest ≤ o.1) ∧ o.1 ≤ highest ∧ minCoinAmount ≤ o.2) ∧
      l.Pairwise (fun a b => b.1 ≤ a.1) ∧ (∀ pp, p.price = some pp → ∀ o ∈ l, o.1 ≤ pp) := by
  unfold poolBuyOrdersRaw
  cases hp : p.price with
  | none => simp
  | some pp =>
    simp only
    by_cases hle : pp ≤ lowest
    · rw [if_pos hle]
      refine ⟨by simp, fun l hl => ?_⟩
      have : l = [] := by simpa using hl.symm
      subst this
      simpa [buyCost] using hrx
    · rw [if_neg hle]
      cases hf : buyFirst sqrt p pp highest with
      | none => simp
      | some r =>
        obtain ⟨p', acc⟩ := r
        simp only
        obtain ⟨f1, f2, f3, f4, f5, f6⟩ := buyFirst_facts hs hrx hry (by omega) hf
        cases hp' : p'.price with
        | none => simp
        | some pp' =>
          simp only
          cases ht : priceToDownTick? (min highest pp') prec with
          | none => simp
          | some tick =>
            simp only
            obtain ⟨b1, b2⟩ := buyLoop_spec prec (show 0 ≤ pp by omega) hlow (buyFuel p' tick) p' tick acc f1 f2
              (by unfold buyFuel; omega)
            refine ⟨b1, fun l hl => ?_⟩
            obtain ⟨l', e1, e2, e3, e4⟩ := (b2 l hl).ex
            subst e1
            -- the first tick of the loop
            have htick : ∀ o ∈ l', o.1 ≤ highest ∧ o.1 ≤ pp := by
              intro o ho
              obtain ⟨c1, c2, c3⟩ := e3 o ho
              unfold priceToDownTick? at ht
              split at ht
              · simp at ht
              · simp only [Option.some.injEq] at ht
                have hpos : 0 < min highest pp' := by
                  by_contra hn
                  have hneg : min highest pp' < 0 := by omega
                  -- a negative price cannot give a positive tick
                  have : tick ≤ 0 := by
                    rw [← ht]
                    unfold priceToDownTick
                    simp only
                    split
                    · have h1 : (min highest pp').tdiv (10 ^ (((char (min highest pp') : Int) - prec)).toNat) ≤ 0 := by
                        have h2 : 0 ≤ (-(min highest pp')).tdiv (10 ^ (((char (min highest pp') : Int) - prec)).toNat) :=
                          Int.tdiv_nonneg (by omega) (le_of_lt (pow10_pos _))
                        rw [Int.neg_tdiv] at h2
                        omega
                      exact Int.mul_nonpos_of_nonpos_of_nonneg h1 (le_of_lt (pow10_pos _))
                    · omega
                  omega
                have hd := down_le hpos prec
                rw [ht] at hd
                have m1 : min highest pp' ≤ highest := min_le_left _ _
                have m2 : min highest pp' ≤ pp' := min_le_right _ _
                refine ⟨by omega, ?_⟩
                by_cases hc : highest < pp
                · omega
                · have := f6 hc
                  subst this
                  rw [hp] at hp'
                  simp only [Option.some.injEq] at hp'
                  omega
            refine ⟨?_, ?_, ?_, ?_⟩
            · have : buyCost (acc ++ l') = buyCost acc + buyCost l' := by simp [buyCost]
              omega
            · intro o ho
              rcases List.mem_append.1 ho with ho | ho
              · obtain ⟨g1, g2, g3⟩ := f4 o ho
                exact ⟨fun _ => by omega, by omega, g3⟩
              · exact ⟨fun _ => (e3 o ho).1, (htick o ho).1, (e3 o ho).2.2⟩
            · refine List.pairwise_append.2 ⟨?_, e4, ?_⟩
              · match acc, f5 with
                | [], _ => exact List.Pairwise.nil
                | [_], _ => simp
              · intro a ha b hb
                have := (f4 a ha).1
                have := (htick b hb).1
                omega
            · intro q hq o ho
              simp only [Option.some.injEq] at hq
              subst hq
              rcases List.mem_append.1 ho with ho | ho
              · obtain ⟨g1, g2, g3⟩ := f4 o ho; omega
              · exact (htick o ho).2

/-- The same for a proper window. -/
theorem poolBuy_spec {sqrt : Int → Int} (hs : ∀ d, 0 ≤ d → 0 ≤ sqrt d) {p : Pool} {lowest highest : Int} {prec : Nat}
    (hrx : 0 ≤ p.rx) (hry : 0 ≤ p.ry) (hlow : 0 < lowest) (hlh : lowest ≤ highest) :
    poolBuyOrdersRaw sqrt p lowest highest prec ≠ .outOfFuel ∧
    ∀ l, poolBuyOrdersRaw sqrt p lowest highest prec = .done l →
      buyCost l ≤ p.rx ∧ (∀ o ∈ l, lowest ≤ o.1 ∧ o.1 ≤ highest ∧ minCoinAmount ≤ o.2) ∧
      l.Pairwise (fun a b => b.1 ≤ a.1) ∧ (∀ pp, p.price = some pp → ∀ o ∈ l, o.1 ≤ pp) := by
  obtain ⟨h0, h⟩ := poolBuy_gen hs (prec := prec) hrx hry hlow (show 0 < highest by omega)
  refine ⟨h0, fun l hl => ?_⟩
  obtain ⟨a, b, c⟩ := h l hl
  exact ⟨a, fun o ho => ⟨(b o ho).1 hlh, (b o ho).2⟩, c⟩

end Verif.Amm

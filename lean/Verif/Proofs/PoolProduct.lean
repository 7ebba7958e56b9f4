import Verif.Proofs.PoolDepth
/-! Constant product over a whole batch of generated orders (x/dex/amm/pool.go:592-672). -/
namespace Verif.Amm
open Verif Verif.Dec Verif.Spec

/-- Reserves `X`, `Y` support the buy orders `l`, taken in order. -/
def BuyChain : Int → Int → List (Int × Int) → Prop
  | _, _, [] => True
  | X, Y, (t, a) :: l => 0 < t ∧ 0 < a ∧ t * (Y + a) ≤ X * one ∧ BuyChain (X - quoteCeil t a) (Y + a) l

def SellChain : Int → Int → List (Int × Int) → Prop
  | _, _, [] => True
  | X, Y, (t, a) :: l => 0 < t ∧ 0 < a ∧ a ≤ Y ∧ X * one ≤ t * (Y - a) ∧ SellChain (X + quoteFloor t a) (Y - a) l

theorem buy_key {p : Pool} {op amt : Int} (hr : p.range = none) (hry : 0 ≤ p.ry) (hop : 0 < op)
    (h : p.buyAmountOver op = some amt) (hamt : 0 < amt) : op * (p.ry + amt) ≤ p.rx * one := by
  unfold Pool.buyAmountOver at h
  simp only [hr] at h
  obtain ⟨hp0, hp1⟩ := @maxop op p.floorPrice hop
  generalize hg : (if op < p.floorPrice then p.floorPrice else op) = price at *
  cases hpp : p.price with
  | none => rw [hpp] at h; simp at h
  | some pp =>
    rw [hpp] at h
    simp only at h
    split at h
    · simp only [Option.some.injEq] at h; omega
    · split at h
      · simp only [Option.some.injEq] at h; omega
      · rename_i hdx
        push Not at hdx
        obtain ⟨k1, k2⟩ := cappedQuo_facts (le_of_lt hdx) hop h
        unfold ofInt mulInt at k2
        have : op * p.ry ≤ price * p.ry := Int.mul_le_mul_of_nonneg_right hp1 hry
        nlinarith

theorem sell_key {p : Pool} {op amt : Int} (hr : p.range = none) (hrx : 0 ≤ p.rx) (hry : 0 ≤ p.ry)
    (h : p.sellAmountUnder op = some amt) (hamt : 0 < amt) : 0 < op ∧ amt ≤ p.ry ∧ p.rx * one ≤ op * (p.ry - amt) := by
  have hle := (sellAmountUnder_facts hry (fun _ => hrx) h)
  have hop := hle.2.2 hr hamt
  refine ⟨hop, hle.2.1, ?_⟩
  unfold Pool.sellAmountUnder at h
  simp only [hr] at h
  have hcp := ceilPrice_pos_basic hr
  have hpl : (if op > p.ceilPrice then p.ceilPrice else op) ≤ op := by split <;> omega
  have hp0 : 0 < (if op > p.ceilPrice then p.ceilPrice else op) := by split <;> omega
  generalize hg : (if op > p.ceilPrice then p.ceilPrice else op) = price at *
  cases hpp : p.price with
  | none => rw [hpp] at h; simp at h
  | some pp =>
    rw [hpp] at h
    simp only at h
    split at h
    · simp only [Option.some.injEq] at h; omega
    · split at h
      · simp at h
      · simp only [Option.some.injEq] at h
        split at h
        · omega
        · rename_i hpos
          push Not at hpos
          obtain ⟨t1, t2⟩ := truncateInt_mul_le hpos
          rw [h] at t1
          have hrn : 0 ≤ ofInt p.rx := Int.mul_nonneg hrx (le_of_lt one_pos')
          obtain ⟨u1, u2, u3⟩ := quoRoundUp_nn hrn hp0
          have v1 : quoRoundUp (ofInt p.rx) price ≤ (p.ry - amt) * one := by
            have : (p.ry - amt) * one = ofInt p.ry - amt * one := by unfold ofInt; ring
            omega
          have v2 : ofInt p.rx * one ≤ (p.ry - amt) * one * price :=
            le_trans u1 (Int.mul_le_mul_of_nonneg_right v1 (le_of_lt hp0))
          have v3 : (p.ry - amt) * price ≤ (p.ry - amt) * op := Int.mul_le_mul_of_nonneg_left hpl (by omega)
          have v4 : (p.rx * one) * one ≤ (op * (p.ry - amt)) * one := by
            unfold ofInt at v2
            have ho := one_pos'
            nlinarith
          exact le_of_mul_le_mul_right v4 one_pos'

theorem buyLoop_chain (prec : Nat) {pp lowest : Int} (hlow : 0 < lowest) :
    ∀ (fuel : Nat) (p : Pool) (tick : Int) (acc : List (Int × Int)), p.range = none → 0 ≤ p.rx → 0 ≤ p.ry →
      ∀ l, buyLoop prec pp lowest fuel p tick acc = .done l → ∃ l', l = acc ++ l' ∧ BuyChain p.rx p.ry l' := by
  intro fuel
  induction fuel with
  | zero => intro p tick acc _ _ _ l h; simp [buyLoop] at h
  | succ n ih =>
    intro p tick acc hr hrx hry l h
    rw [buyLoop] at h
    split at h
    · have : acc = l := by simpa using h
      exact ⟨[], by simp [this], trivial⟩
    · rename_i htl
      push Not at htl
      have ht : 0 < tick := by omega
      cases hb : p.buyAmountOver tick with
      | none => rw [hb] at h; simp at h
      | some amt =>
        rw [hb] at h
        simp only at h
        split at h
        · exact ih p _ acc hr hrx hry l h
        · rename_i hm
          have hamt : 100 ≤ amt := by unfold minCoinAmount at hm; omega
          have key := buy_key hr hry ht hb (by omega)
          have hrx' : (afterBuy p tick amt).1 = p.rx - quoteCeil tick amt := rfl
          have hry' : (afterBuy p tick amt).2 = p.ry + amt := rfl
          simp only [hrx', hry'] at h
          split at h
          · have : acc ++ [(tick, amt)] = l := by simpa using h
            exact ⟨[(tick, amt)], this.symm, ht, by omega, key, trivial⟩
          · rename_i hz
            split at h
            · simp at h
            · rename_i t _
              obtain ⟨l', e, c⟩ := ih { p with rx := p.rx - quoteCeil tick amt, ry := p.ry + amt } t (acc ++ [(tick, amt)])
                hr (by show 0 ≤ p.rx - quoteCeil tick amt; omega) (by show 0 ≤ p.ry + amt; omega) l h
              exact ⟨(tick, amt) :: l', by rw [e]; simp, ht, by omega, key, c⟩

theorem sellLoop_chain (prec : Nat) {pp highest : Int} :
    ∀ (fuel : Nat) (p : Pool) (tick : Int) (acc : List (Int × Int)), p.range = none → 0 ≤ p.rx → 0 ≤ p.ry →
      ∀ l, sellLoop prec pp highest fuel p tick acc = .done l → ∃ l', l = acc ++ l' ∧ SellChain p.rx p.ry l' := by
  intro fuel
  induction fuel with
  | zero => intro p tick acc _ _ _ l h; simp [sellLoop] at h
  | succ n ih =>
    intro p tick acc hr hrx hry l h
    rw [sellLoop] at h
    split at h
    · have : acc = l := by simpa using h
      exact ⟨[], by simp [this], trivial⟩
    · cases hb : p.sellAmountUnder tick with
      | none => rw [hb] at h; simp at h
      | some amt =>
        rw [hb] at h
        simp only at h
        split at h
        · exact ih p _ acc hr hrx hry l h
        · rename_i hm
          have hamt : 100 ≤ amt := by unfold minCoinAmount at hm; omega
          obtain ⟨ht, hle, key⟩ := sell_key hr hrx hry hb (by omega)
          have hrx' : (afterSell p tick amt).1 = p.rx + quoteFloor tick amt := rfl
          have hry' : (afterSell p tick amt).2 = p.ry - amt := rfl
          have hq := (quoteFloor_facts (Int.mul_nonneg (le_of_lt ht) (by omega) : 0 ≤ tick * amt)).2.2
          simp only [hrx', hry'] at h
          split at h
          · have : acc ++ [(tick, amt)] = l := by simpa using h
            exact ⟨[(tick, amt)], this.symm, ht, by omega, hle, key, trivial⟩
          · split at h
            · simp at h
            · rename_i t _
              obtain ⟨l', e, c⟩ := ih { p with rx := p.rx + quoteFloor tick amt, ry := p.ry - amt } t (acc ++ [(tick, amt)])
                hr (by show 0 ≤ p.rx + quoteFloor tick amt; omega) (by show 0 ≤ p.ry - amt; omega) l h
              exact ⟨(tick, amt) :: l', by rw [e]; simp, ht, by omega, hle, key, c⟩

theorem quoteUp_facts (t b : Int) (h : 0 ≤ t * b) : quoteUp t b = quoteCeil t b := by
  obtain ⟨q1, q2, q3⟩ := quoteCeil_facts h
  unfold quoteUp
  have e : (10 : Int) ^ 18 = one := rfl
  rw [e]
  have ho := one_pos'
  have : -(t * b) / one = - quoteCeil t b := by
    rw [Int.ediv_eq_iff_of_pos ho]
    constructor <;> nlinarith
  omega

theorem quoteDown_facts (t b : Int) (h : 0 ≤ t * b) : quoteDown t b = quoteFloor t b := by
  obtain ⟨q1, q2, q3⟩ := quoteFloor_facts h
  unfold quoteDown
  have e : (10 : Int) ^ 18 = one := rfl
  rw [e]
  have ho := one_pos'
  rw [Int.ediv_eq_iff_of_pos ho]
  constructor <;> nlinarith

/-- Product bound over a chain of (possibly partial) buys. -/
theorem bought_product {l : List (Int × Int)} {X Y X' Y' : Int} (h : BoughtFrom l X Y X' Y') :
    ∀ Xf Yf, BuyChain Xf Yf l → Xf ≤ X → Y ≤ Yf → 0 ≤ Y → X * Y - (l.length : Int) * Y' ≤ X' * Y' ∧ Y ≤ Y' := by
  induction h with
  | nil => intro Xf Yf _ _ _ _; simp
  | @cons t a b c X Y X' Y' l hb hba hc h ih =>
    intro Xf Yf hch hX hY hY0
    obtain ⟨ht, ha, hk, hrest⟩ := hch
    have hn : 0 ≤ t * b := Int.mul_nonneg ht.le hb
    have hna : 0 ≤ t * a := Int.mul_nonneg ht.le ha.le
    rw [quoteUp_facts t b hn] at hc
    obtain ⟨q1, q2, q3⟩ := quoteCeil_facts hn
    obtain ⟨r1, r2, r3⟩ := quoteCeil_facts hna
    have ho := one_pos'
    have hab : t * b ≤ t * a := Int.mul_le_mul_of_nonneg_left hba ht.le
    have hmono : quoteCeil t b ≤ quoteCeil t a := quoteCeil_le hn (le_trans hab r1)
    obtain ⟨i1, i2⟩ := ih _ _ hrest (by omega) (by omega) (by omega)
    refine ⟨?_, by omega⟩
    have k1 : t * (Y + b) ≤ X * one := by
      have : t * (Y + b) ≤ t * (Yf + a) := Int.mul_le_mul_of_nonneg_left (by omega) ht.le
      have : Xf * one ≤ X * one := Int.mul_le_mul_of_nonneg_right hX ho.le
      omega
    have c1 : (X * one - t * b - one) * (Y + b) ≤ (X - c) * one * (Y + b) :=
      Int.mul_le_mul_of_nonneg_right (by nlinarith) (by omega)
    have c2 : 0 ≤ b * (X * one - t * (Y + b)) := Int.mul_nonneg hb (by omega)
    have c3 : (X * Y - (Y + b)) * one ≤ ((X - c) * (Y + b)) * one := by nlinarith
    have c4 := le_of_mul_le_mul_right c3 ho
    push_cast [List.length_cons]
    nlinarith

/-- Product bound over a chain of (possibly partial) sells. -/
theorem sold_product {l : List (Int × Int)} {X Y X' Y' : Int} (h : SoldFrom l X Y X' Y') :
    ∀ X0 Xf Yf, SellChain Xf Yf l → X0 ≤ X → X0 ≤ Xf → Yf ≤ Y → 0 ≤ Y →
      X0 * Y - (l.length : Int) * Y ≤ X' * Y' ∧ Y' ≤ Y ∧ 0 ≤ Y' := by
  induction h with
  | @nil X Y =>
    intro X0 Xf Yf _ hX _ _ hY
    have : X0 * Y ≤ X * Y := Int.mul_le_mul_of_nonneg_right hX hY
    exact ⟨by simpa using this, le_refl _, hY⟩
  | @cons t a b c X Y X' Y' l hb hba hc h ih =>
    intro X0 Xf Yf hch hX hXf hY hY0
    obtain ⟨ht, ha, hay, hk, hrest⟩ := hch
    have hn : 0 ≤ t * b := Int.mul_nonneg ht.le hb
    have hna : 0 ≤ t * a := Int.mul_nonneg ht.le ha.le
    rw [quoteDown_facts t b hn] at hc
    obtain ⟨q1, q2, q3⟩ := quoteFloor_facts hn
    obtain ⟨r1, r2, r3⟩ := quoteFloor_facts hna
    have ho := one_pos'
    have hab : t * b ≤ t * a := Int.mul_le_mul_of_nonneg_left hba ht.le
    have hmono : quoteFloor t b ≤ quoteFloor t a := by
      have : quoteFloor t b * one < (quoteFloor t a + 1) * one := by nlinarith
      have := lt_of_mul_lt_mul_right this ho.le
      omega
    obtain ⟨i1, i2, i3⟩ := ih (X0 + quoteFloor t b) _ _ hrest (by omega) (by omega) (by omega) (by omega)
    refine ⟨?_, by omega, i3⟩
    have k1 : X0 * one ≤ t * (Y - b) := by
      have : t * (Yf - a) ≤ t * (Y - b) := Int.mul_le_mul_of_nonneg_left (by omega) ht.le
      have : X0 * one ≤ Xf * one := Int.mul_le_mul_of_nonneg_right hXf ho.le
      omega
    have hYb : 0 ≤ Y - b := by omega
    have c1 : (X0 * one + t * b - one) * (Y - b) ≤ (X0 + quoteFloor t b) * one * (Y - b) :=
      Int.mul_le_mul_of_nonneg_right (by nlinarith) hYb
    have c2 : 0 ≤ b * (t * (Y - b) - X0 * one) := Int.mul_nonneg hb (by omega)
    have c3 : (X0 * Y - (Y - b)) * one ≤ ((X0 + quoteFloor t b) * (Y - b)) * one := by nlinarith
    have c4 := le_of_mul_le_mul_right c3 ho
    have c5 : (l.length : Int) * (Y - b) ≤ (l.length : Int) * Y := Int.mul_le_mul_of_nonneg_left (by omega) (by omega)
    push_cast [List.length_cons]
    nlinarith

end Verif.Amm

import Verif.Proofs.Liquidity
import Verif.Proofs.Tick
/-! Amounts offered by pools (x/dex/amm/pool.go, x/dex/amm/util.go:136-163). -/
namespace Verif.Amm
open Verif Verif.Dec

/-! ## rounding -/

theorem mul_nonneg_dec {a b : Int} (ha : 0 ≤ a) (hb : 0 ≤ b) : 0 ≤ Dec.mul a b := chop_nonneg (Int.mul_nonneg ha hb)

theorem mul_mono_right {a b c : Int} (ha : 0 ≤ a) (hb : 0 ≤ b) (h : b ≤ c) : Dec.mul a b ≤ Dec.mul a c :=
  chop_mono_nn (Int.mul_nonneg ha hb) (Int.mul_le_mul_of_nonneg_left h ha)

theorem mul_mono_left {a b c : Int} (ha : 0 ≤ a) (hb : 0 ≤ b) (h : a ≤ c) : Dec.mul a b ≤ Dec.mul c b :=
  chop_mono_nn (Int.mul_nonneg ha hb) (Int.mul_le_mul_of_nonneg_right h hb)

theorem mul_one_dec (a : Int) : Dec.mul a one = a := chop_int

theorem quo_nonneg_dec {a b : Int} (ha : 0 ≤ a) (hb : 0 ≤ b) : 0 ≤ Dec.quo a b := by
  unfold Dec.quo
  apply chop_nonneg
  rw [Int.tdiv_eq_ediv_of_nonneg (Int.mul_nonneg (Int.mul_nonneg ha (le_of_lt one_pos')) (le_of_lt one_pos'))]
  exact Int.ediv_nonneg (Int.mul_nonneg (Int.mul_nonneg ha (le_of_lt one_pos')) (le_of_lt one_pos')) hb

theorem ediv_le_ediv_cross {a b c d : Int} (hb : 0 < b) (hd : 0 < d) (h : a * d ≤ c * b) : a / b ≤ c / d := by
  rw [Int.le_ediv_iff_mul_le hd]
  have h1 : a / b * b ≤ a := ediv_mul_le' hb
  have h2 : (a / b * d) * b ≤ c * b := by
    calc (a / b * d) * b = (a / b * b) * d := by ring
      _ ≤ a * d := Int.mul_le_mul_of_nonneg_right h1 (le_of_lt hd)
      _ ≤ c * b := h
  exact le_of_mul_le_mul_right h2 hb

theorem quo_cross {a b c d : Int} (ha : 0 ≤ a) (hc : 0 ≤ c) (hb : 0 < b) (hd : 0 < d) (h : a * d ≤ c * b) :
    Dec.quo a b ≤ Dec.quo c d := by
  have ho := le_of_lt one_pos'
  unfold Dec.quo
  rw [Int.tdiv_eq_ediv_of_nonneg (Int.mul_nonneg (Int.mul_nonneg ha ho) ho),
    Int.tdiv_eq_ediv_of_nonneg (Int.mul_nonneg (Int.mul_nonneg hc ho) ho)]
  apply chop_mono_nn (Int.ediv_nonneg (Int.mul_nonneg (Int.mul_nonneg ha ho) ho) (le_of_lt hb))
  apply ediv_le_ediv_cross hb hd
  have : a * one * one * d = (a * d) * (one * one) := by ring
  rw [this]
  have : c * one * one * b = (c * b) * (one * one) := by ring
  rw [this]
  exact Int.mul_le_mul_of_nonneg_right h (Int.mul_nonneg ho ho)

theorem quoteCeil_facts {price amt : Int} (h : 0 ≤ price * amt) :
    price * amt ≤ quoteCeil price amt * one ∧ quoteCeil price amt * one < price * amt + one ∧ 0 ≤ quoteCeil price amt := by
  unfold quoteCeil mulInt
  exact truncCeil h

theorem quoteCeil_le {price amt k : Int} (h : 0 ≤ price * amt) (hk : price * amt ≤ k * one) : quoteCeil price amt ≤ k :=
  truncCeil_le h hk

theorem quoteFloor_facts {price amt : Int} (h : 0 ≤ price * amt) :
    quoteFloor price amt * one ≤ price * amt ∧ price * amt < quoteFloor price amt * one + one ∧ 0 ≤ quoteFloor price amt := by
  unfold quoteFloor mulInt
  rw [trunc_nn h]
  refine ⟨ediv_mul_le' one_pos', ?_, Int.ediv_nonneg h (le_of_lt one_pos')⟩
  have := @lt_ediv_add_one_mul' (price * amt) one one_pos'
  linarith

theorem truncateInt_le {a k : Int} (h : a ≤ k * one) (hk : 0 ≤ k) : truncateInt a ≤ k := by
  unfold truncateInt
  by_cases ha : 0 ≤ a
  · rw [Int.tdiv_eq_ediv_of_nonneg ha]
    have : a / one ≤ (k * one) / one := Int.ediv_le_ediv one_pos' h
    rwa [Int.mul_ediv_cancel _ (ne_of_gt one_pos')] at this
  · have : a.tdiv one ≤ 0 := by
      have h1 : 0 ≤ (-a).tdiv one := Int.tdiv_nonneg (by omega) (le_of_lt one_pos')
      rw [Int.neg_tdiv] at h1
      omega
    omega

theorem truncateInt_mono {a b : Int} (h : a ≤ b) : truncateInt a ≤ truncateInt b := by
  unfold truncateInt
  by_cases ha : 0 ≤ a
  · rw [Int.tdiv_eq_ediv_of_nonneg ha, Int.tdiv_eq_ediv_of_nonneg (by omega)]
    exact Int.ediv_le_ediv one_pos' h
  · have h1 : a.tdiv one = -((-a) / one) := by
      have : a.tdiv one = -((-a).tdiv one) := by rw [Int.neg_tdiv]; ring
      rw [this, Int.tdiv_eq_ediv_of_nonneg (by omega)]
    by_cases hb : 0 ≤ b
    · rw [h1, Int.tdiv_eq_ediv_of_nonneg hb]
      have := Int.ediv_nonneg hb (le_of_lt one_pos')
      have := Int.ediv_nonneg (show 0 ≤ -a by omega) (le_of_lt one_pos')
      omega
    · have h2 : b.tdiv one = -((-b) / one) := by
        have : b.tdiv one = -((-b).tdiv one) := by rw [Int.neg_tdiv]; ring
        rw [this, Int.tdiv_eq_ediv_of_nonneg (by omega)]
      rw [h1, h2]
      have : (-b) / one ≤ (-a) / one := Int.ediv_le_ediv one_pos' (by omega)
      omega

/-- Truncation of a positive result is at most the number. -/
theorem truncateInt_mul_le {a : Int} (h : 0 < truncateInt a) : truncateInt a * one ≤ a ∧ 0 < a := by
  have ha : 0 < a := by
    by_contra hc
    have : truncateInt a ≤ 0 := truncateInt_le (by omega) (le_refl 0)
    omega
  refine ⟨?_, ha⟩
  rw [trunc_nn (le_of_lt ha)]
  exact ediv_mul_le' one_pos'

theorem quoRoundUp_nn {a b : Int} (ha : 0 ≤ a) (hb : 0 < b) :
    a * one ≤ quoRoundUp a b * b ∧ quoRoundUp a b * b < a * one + b ∧ 0 ≤ quoRoundUp a b := by
  unfold quoRoundUp
  simp only
  have hn : 0 ≤ a * one := Int.mul_nonneg ha (le_of_lt one_pos')
  rw [Int.tdiv_eq_ediv_of_nonneg hn, Int.tmod_eq_emod_of_nonneg hn]
  have h1 := Int.mul_ediv_add_emod (a * one) b
  have h2 := Int.emod_nonneg (a * one) (ne_of_gt hb)
  have h3 := Int.emod_lt_of_pos (a * one) hb
  have h4 := Int.ediv_nonneg hn (le_of_lt hb)
  split
  · have : (a * one / b + 1) * b = b * (a * one / b) + b := by ring
    refine ⟨?_, ?_, by omega⟩ <;> omega
  · have : (a * one / b) * b = b * (a * one / b) := by ring
    refine ⟨?_, ?_, by omega⟩ <;> omega

theorem quoRoundUp_anti {a b c : Int} (ha : 0 ≤ a) (hb : 0 < b) (h : b ≤ c) : quoRoundUp a c ≤ quoRoundUp a b := by
  obtain ⟨x1, x2, x3⟩ := quoRoundUp_nn ha hb
  obtain ⟨y1, y2, y3⟩ := quoRoundUp_nn ha (show 0 < c by omega)
  by_contra hc
  push Not at hc
  have : (quoRoundUp a b + 1) * c ≤ quoRoundUp a c * c := Int.mul_le_mul_of_nonneg_right (by omega) (by omega)
  have h2 : quoRoundUp a b * b ≤ quoRoundUp a b * c := Int.mul_le_mul_of_nonneg_left h x3
  nlinarith

/-! ## the capped quotient -/

theorem cappedQuo_eq {dx op : Int} (hdx : 0 ≤ dx) (hop : 0 < op) : cappedQuo dx op = some (min (dx / op) maxCoinAmount) := by
  unfold cappedQuo
  rw [if_neg (by omega)]
  simp only
  have h : truncateInt (quoTruncate dx op) = dx / op := by
    rw [quoTrunc_nn hdx, trunc_nn (Int.ediv_nonneg (Int.mul_nonneg hdx (le_of_lt one_pos')) (le_of_lt hop)),
      Int.ediv_ediv_of_nonneg (le_of_lt hop)]
    exact Int.mul_ediv_mul_of_pos_left dx op one_pos'
  rw [h]
  split
  · rw [min_eq_right (by omega)]
  · rw [min_eq_left (by omega)]

theorem cappedQuo_facts {dx op amt : Int} (hdx : 0 ≤ dx) (hop : 0 < op) (h : cappedQuo dx op = some amt) :
    0 ≤ amt ∧ amt * op ≤ dx := by
  rw [cappedQuo_eq hdx hop] at h
  have h : min (dx / op) maxCoinAmount = amt := by simpa using h
  have h0 : 0 ≤ dx / op := Int.ediv_nonneg hdx (le_of_lt hop)
  have hm : (0:Int) ≤ maxCoinAmount := by decide
  refine ⟨by rw [← h]; exact le_min h0 hm, ?_⟩
  have : amt ≤ dx / op := by rw [← h]; exact min_le_left _ _
  exact le_trans (Int.mul_le_mul_of_nonneg_right this (le_of_lt hop)) (ediv_mul_le' hop)

theorem floorPrice_pos_basic {p : Pool} (h : p.range = none) : 0 < p.floorPrice := by
  unfold Pool.floorPrice; rw [h]; decide

theorem ceilPrice_pos_basic {p : Pool} (h : p.range = none) : 0 < p.ceilPrice := by
  unfold Pool.ceilPrice; rw [h]; decide

theorem maxop {op f : Int} (hop : 0 < op) : 0 < (if op < f then f else op) ∧ op ≤ (if op < f then f else op) := by
  split <;> omega

/-- `BuyAmountOver`: the cost at the asked price is within the quote reserve. -/
theorem buyAmountOver_facts {p : Pool} {op amt : Int} (hrx : 0 ≤ p.rx) (hry : 0 ≤ p.ry) (hop : 0 < op)
    (h : p.buyAmountOver op = some amt) : 0 ≤ amt ∧ op * amt ≤ p.rx * one := by
  have hro : 0 ≤ p.rx * one := Int.mul_nonneg hrx (le_of_lt one_pos')
  obtain ⟨hp0, _⟩ := @maxop op p.floorPrice hop
  unfold Pool.buyAmountOver at h
  simp only at h
  generalize hg : (if op < p.floorPrice then p.floorPrice else op) = price at *
  cases hpp : p.price with
  | none => rw [hpp] at h; simp at h
  | some pp =>
    rw [hpp] at h
    simp only at h
    split at h
    · simp only [Option.some.injEq] at h; subst h; simpa using hro
    · cases hr : p.range with
      | none =>
        rw [hr] at h
        simp only at h
        split at h
        · simp only [Option.some.injEq] at h; subst h; simpa using hro
        · rename_i hdx
          push Not at hdx
          obtain ⟨k1, k2⟩ := cappedQuo_facts (le_of_lt hdx) hop h
          refine ⟨k1, ?_⟩
          have : 0 ≤ price * p.ry := Int.mul_nonneg (le_of_lt hp0) hry
          unfold ofInt mulInt at k2
          have e : op * amt = amt * op := by ring
          omega
      | some r =>
        rw [hr] at h
        simp only at h
        split at h
        · simp only [Option.some.injEq] at h; subst h; simpa using hro
        · rename_i hdx
          push Not at hdx
          have hd : 0 ≤ (if p.xComp - Dec.mul price p.yComp > ofInt p.rx
              then ofInt p.rx else p.xComp - Dec.mul price p.yComp) := by
            split
            · exact hro
            · exact le_of_lt hdx
          obtain ⟨k1, k2⟩ := cappedQuo_facts hd hop h
          refine ⟨k1, ?_⟩
          have e : op * amt = amt * op := by ring
          rw [e]
          refine le_trans k2 ?_
          unfold ofInt
          split <;> omega

/-- `BuyAmountTo`: the cost at the asked price is within the quote reserve. -/
theorem buyAmountTo_facts {sqrt : Int → Int} (hs : ∀ d, 0 ≤ d → 0 ≤ sqrt d) {p : Pool} {op amt : Int} (hrx : 0 ≤ p.rx)
    (hry : 0 ≤ p.ry) (hop : 0 < op) (h : p.buyAmountTo sqrt op = some amt) : 0 ≤ amt ∧ op * amt ≤ p.rx * one := by
  have hro : 0 ≤ p.rx * one := Int.mul_nonneg hrx (le_of_lt one_pos')
  have hro' : 0 ≤ p.ry * one := Int.mul_nonneg hry (le_of_lt one_pos')
  obtain ⟨hp0, _⟩ := @maxop op p.floorPrice hop
  unfold Pool.buyAmountTo at h
  simp only at h
  generalize hg : (if op < p.floorPrice then p.floorPrice else op) = price at *
  cases hpp : p.price with
  | none => rw [hpp] at h; simp at h
  | some pp =>
    rw [hpp] at h
    simp only at h
    split at h
    · simp only [Option.some.injEq] at h; subst h; simpa using hro
    · cases hr : p.range with
      | none =>
        rw [hr] at h
        simp only at h
        split at h
        · simp only [Option.some.injEq] at h; subst h; simpa using hro
        · rename_i hdx
          push Not at hdx
          obtain ⟨k1, k2⟩ := cappedQuo_facts (le_of_lt hdx) hop h
          refine ⟨k1, ?_⟩
          have := mul_nonneg_dec (hs _ (le_of_lt hp0)) (mul_nonneg_dec (hs _ hro) (hs _ hro'))
          unfold ofInt at k2
          have e : op * amt = amt * op := by ring
          omega
      | some r =>
        rw [hr] at h
        simp only at h
        split at h
        · simp only [Option.some.injEq] at h; subst h; simpa using hro
        · rename_i hdx
          push Not at hdx
          have e : op * amt = amt * op := by ring
          rw [e]
          split at h
          · obtain ⟨k1, k2⟩ := cappedQuo_facts hro hop h
            exact ⟨k1, k2⟩
          · rename_i hle
            obtain ⟨k1, k2⟩ := cappedQuo_facts (le_of_lt hdx) hop h
            refine ⟨k1, le_trans k2 ?_⟩
            unfold ofInt at hle ⊢
            omega

theorem price_nonneg_basic {p : Pool} {pp : Int} (hrx : 0 ≤ p.rx) (hry : 0 ≤ p.ry) (hr : p.range = none)
    (h : p.price = some pp) : 0 ≤ pp := by
  unfold Pool.price at h
  rw [hr] at h
  simp only at h
  split at h
  · simp at h
  · unfold quo? at h
    split at h
    · simp at h
    · simp only [Option.some.injEq] at h
      rw [← h]
      exact quo_nonneg_dec (Int.mul_nonneg hrx (le_of_lt one_pos')) (Int.mul_nonneg hry (le_of_lt one_pos'))

/-- `SellAmountUnder`: within the base reserve; a positive answer of a basic pool is for a positive price. -/
theorem sellAmountUnder_facts {p : Pool} {op amt : Int} (hry : 0 ≤ p.ry) (hrx : p.range = none → 0 ≤ p.rx)
    (h : p.sellAmountUnder op = some amt) : 0 ≤ amt ∧ amt ≤ p.ry ∧ (p.range = none → 0 < amt → 0 < op) := by
  unfold Pool.sellAmountUnder at h
  simp only at h
  generalize hg : (if op > p.ceilPrice then p.ceilPrice else op) = price at *
  cases hpp : p.price with
  | none => rw [hpp] at h; simp at h
  | some pp =>
    rw [hpp] at h
    simp only at h
    split at h
    · simp only [Option.some.injEq] at h; subst h; exact ⟨le_refl _, hry, fun _ h => by omega⟩
    · rename_i hgt
      split at h
      · simp at h
      · cases hr : p.range with
        | none =>
          have hpn := price_nonneg_basic (hrx hr) hry hr hpp
          have hpr : 0 < price := by omega
          have hop : 0 < op := by
            have := ceilPrice_pos_basic hr
            split at hg <;> omega
          rw [hr] at h
          simp only [Option.some.injEq] at h
          obtain ⟨_, _, q3⟩ := quoRoundUp_nn (Int.mul_nonneg (hrx hr) (le_of_lt one_pos') : 0 ≤ ofInt p.rx) hpr
          have hle : truncateInt (ofInt p.ry - quoRoundUp (ofInt p.rx) price) ≤ p.ry :=
            truncateInt_le (by unfold ofInt at *; omega) hry
          split at h
          · subst h; exact ⟨le_refl _, hry, fun _ h => by omega⟩
          · subst h; exact ⟨by omega, hle, fun _ _ => hop⟩
        | some r =>
          rw [hr] at h
          simp only [Option.some.injEq] at h
          refine ⟨?_, ?_, fun h => by simp at h⟩
          · split at h <;> omega
          · split at h
            · omega
            · subst h; split <;> omega

/-- `SellAmountTo`: within the base reserve. -/
theorem sellAmountTo_facts {sqrt : Int → Int} (hs : ∀ d, 0 ≤ d → 0 ≤ sqrt d) {p : Pool} {op amt : Int} (hry : 0 ≤ p.ry)
    (hrx : p.range = none → 0 ≤ p.rx) (h : p.sellAmountTo sqrt op = some amt) : 0 ≤ amt ∧ amt ≤ p.ry := by
  unfold Pool.sellAmountTo at h
  simp only at h
  generalize hg : (if op > p.ceilPrice then p.ceilPrice else op) = price at *
  cases hpp : p.price with
  | none => rw [hpp] at h; simp at h
  | some pp =>
    rw [hpp] at h
    simp only at h
    split at h
    · simp only [Option.some.injEq] at h; subst h; exact ⟨le_refl _, hry⟩
    · rename_i hgt
      split at h
      · simp at h
      · cases hr : p.range with
        | none =>
          have hpn := price_nonneg_basic (hrx hr) hry hr hpp
          have hpr : 0 ≤ price := by omega
          rw [hr] at h
          simp only [Option.some.injEq] at h
          have q3 := quo_nonneg_dec (mul_nonneg_dec (hs _ (Int.mul_nonneg (hrx hr) (le_of_lt one_pos') : 0 ≤ ofInt p.rx))
            (hs _ (Int.mul_nonneg hry (le_of_lt one_pos') : 0 ≤ ofInt p.ry))) (hs _ hpr)
          have hle : truncateInt (ofInt p.ry - Dec.quo (Dec.mul (sqrt (ofInt p.rx)) (sqrt (ofInt p.ry)))
              (sqrt price)) ≤ p.ry :=
            truncateInt_le (by unfold ofInt at *; omega) hry
          split at h
          · subst h; exact ⟨le_refl _, hry⟩
          · subst h; exact ⟨by omega, hle⟩
        | some r =>
          rw [hr] at h
          simp only [Option.some.injEq] at h
          refine ⟨?_, ?_⟩
          · split at h <;> omega
          · split at h
            · omega
            · subst h; split <;> omega

/-! ## the price gap ratio -/

theorem seg1 {x : Int} (h0 : 0 ≤ x) (h : x ≤ t1) : 0 ≤ Dec.mul a1 x ∧ Dec.mul a1 x ≤ 70000000000000 := by
  refine ⟨mul_nonneg_dec (by decide) h0, ?_⟩
  calc Dec.mul a1 x ≤ Dec.mul a1 t1 := mul_mono_right (by decide) h0 h
    _ = 70000000000000 := by decide

theorem seg2 {x : Int} (h0 : t1 < x) (h : x ≤ t2) : 900000000000000 ≤ Dec.mul a2 x ∧ Dec.mul a2 x ≤ 1800000000000000 := by
  constructor
  · calc (900000000000000 : Int) = Dec.mul a2 t1 := by decide
      _ ≤ Dec.mul a2 x := mul_mono_right (by decide) (by decide) (le_of_lt h0)
  · calc Dec.mul a2 x ≤ Dec.mul a2 t2 := mul_mono_right (by decide) (le_trans (by decide) (le_of_lt h0)) h
      _ = 1800000000000000 := by decide

theorem seg3 {x : Int} (h0 : t2 < x) (h : x ≤ t3) : 1000000000000000 ≤ Dec.mul a3 x ∧ Dec.mul a3 x ≤ 5000000000000000 := by
  constructor
  · calc (1000000000000000 : Int) = Dec.mul a3 t2 := by decide
      _ ≤ Dec.mul a3 x := mul_mono_right (by decide) (by decide) (le_of_lt h0)
  · calc Dec.mul a3 x ≤ Dec.mul a3 t3 := mul_mono_right (by decide) (le_trans (by decide) (le_of_lt h0)) h
      _ = 5000000000000000 := by decide

/-- The piecewise function of the relative distance. -/
def gapOf (x : Int) : Int :=
  if x ≤ t1 then Dec.mul a1 x + b1
  else if x ≤ t2 then Dec.mul a2 x + b2
  else if x ≤ t3 then Dec.mul a3 x
  else b4

theorem gapOf_bounds {x : Int} (h0 : 0 ≤ x) : 30000000000000 ≤ gapOf x ∧ gapOf x ≤ 5000000000000000 := by
  unfold gapOf
  have e1 : b1 = 30000000000000 := rfl
  have e2 : b2 = -800000000000000 := rfl
  have e4 : b4 = 5000000000000000 := rfl
  split
  · rename_i h; have := seg1 h0 h; omega
  · split
    · rename_i h1 h; have := seg2 (by omega) h; omega
    · split
      · rename_i h1 h2 h; have := seg3 (by omega) h; omega
      · omega

theorem gapOf_mono {x y : Int} (h0 : 0 ≤ x) (hxy : x ≤ y) : gapOf x ≤ gapOf y := by
  have e1 : b1 = 30000000000000 := rfl
  have e2 : b2 = -800000000000000 := rfl
  have e4 : b4 = 5000000000000000 := rfl
  by_cases hx1 : x ≤ t1
  · have s := seg1 h0 hx1
    by_cases hy1 : y ≤ t1
    · unfold gapOf; rw [if_pos hx1, if_pos hy1]
      have := @mul_mono_right a1 x y (by decide) h0 hxy
      omega
    · have : 100000000000000 ≤ gapOf y := by
        unfold gapOf; rw [if_neg hy1]
        split
        · rename_i h; have := seg2 (by omega) h; omega
        · split
          · rename_i h2 h; have := seg3 (by omega) h; omega
          · omega
      unfold gapOf at *; rw [if_pos hx1]; omega
  · by_cases hx2 : x ≤ t2
    · have s := seg2 (by omega) hx2
      have hy1 : ¬ y ≤ t1 := by omega
      by_cases hy2 : y ≤ t2
      · unfold gapOf; rw [if_neg hx1, if_pos hx2, if_neg hy1, if_pos hy2]
        have := @mul_mono_right a2 x y (by decide) h0 hxy
        omega
      · have : 1000000000000000 ≤ gapOf y := by
          unfold gapOf; rw [if_neg hy1, if_neg hy2]
          split
          · rename_i h; have := seg3 (by omega) h; omega
          · omega
        unfold gapOf at *; rw [if_neg hx1, if_pos hx2]; omega
    · have hy1 : ¬ y ≤ t1 := by omega
      have hy2 : ¬ y ≤ t2 := by omega
      by_cases hx3 : x ≤ t3
      · by_cases hy3 : y ≤ t3
        · unfold gapOf; rw [if_neg hx1, if_neg hx2, if_pos hx3, if_neg hy1, if_neg hy2, if_pos hy3]
          exact mul_mono_right (by decide) h0 hxy
        · have := (gapOf_bounds h0).2
          have e : gapOf y = b4 := by unfold gapOf; rw [if_neg hy1, if_neg hy2, if_neg hy3]
          omega
      · have e : gapOf y = b4 := by unfold gapOf; rw [if_neg hy1, if_neg hy2, if_neg (by omega)]
        have e' : gapOf x = b4 := by unfold gapOf; rw [if_neg hx1, if_neg hx2, if_neg hx3]
        omega

theorem gap_bounds {pp cur : Int} (h : 0 ≤ pp) :
    30000000000000 ≤ poolOrderPriceGapRatio pp cur ∧ poolOrderPriceGapRatio pp cur ≤ 5000000000000000 := by
  have : poolOrderPriceGapRatio pp cur = gapOf (Dec.quo ((cur - (if pp = 0 then 1 else pp)).natAbs : Int) (if pp = 0 then 1 else pp)) := rfl
  rw [this]
  apply gapOf_bounds
  exact quo_nonneg_dec (by omega) (by split <;> omega)

theorem gap_mono {p c q d : Int} (hp : 0 < p) (hq : 0 < q) (h : ((c - p).natAbs : Int) * q ≤ ((d - q).natAbs : Int) * p) :
    poolOrderPriceGapRatio p c ≤ poolOrderPriceGapRatio q d := by
  have e1 : poolOrderPriceGapRatio p c = gapOf (Dec.quo ((c - (if p = 0 then 1 else p)).natAbs : Int) (if p = 0 then 1 else p)) := rfl
  have e2 : poolOrderPriceGapRatio q d = gapOf (Dec.quo ((d - (if q = 0 then 1 else q)).natAbs : Int) (if q = 0 then 1 else q)) := rfl
  rw [e1, e2, if_neg (by omega), if_neg (by omega)]
  exact gapOf_mono (quo_nonneg_dec (by omega) (by omega)) (quo_cross (by omega) (by omega) hp hq h)

/-- The next tick below, in the buy loop. -/
theorem nextBuy {tick c : Int} {prec : Nat} (ht : 0 < tick) (hc : 995000000000000000 ≤ c) (hc1 : c ≤ one) :
    ∃ t, priceToDownTick? (Dec.mul tick c) prec = some t ∧ 0 < t ∧ t ≤ tick ∧ Spec.IsTick prec t := by
  have h1 : 1 ≤ Dec.mul tick c := by
    calc (1 : Int) = Dec.mul 1 995000000000000000 := by decide
      _ ≤ Dec.mul 1 c := mul_mono_right (by decide) (by decide) hc
      _ ≤ Dec.mul tick c := mul_mono_left (by decide) (by omega) (by omega)
  have h2 : Dec.mul tick c ≤ tick := by
    calc Dec.mul tick c ≤ Dec.mul tick one := mul_mono_right (by omega) (by omega) hc1
      _ = tick := mul_one_dec tick
  refine ⟨priceToDownTick (Dec.mul tick c) prec, ?_, down_pos (by omega) prec, le_trans (down_le (by omega) prec) h2,
    isTick_down (by omega) prec⟩
  unfold priceToDownTick?
  rw [if_neg (by omega)]

/-- The next tick above, in the sell loop. -/
theorem nextSell {tick c : Int} {prec : Nat} (ht : 0 < tick) (hc1 : one ≤ c) :
    ∃ t, priceToUpTick? (Dec.mul tick c) prec = some t ∧ tick ≤ t ∧ Spec.IsTick prec t := by
  have h2 : tick ≤ Dec.mul tick c := by
    calc tick = Dec.mul tick one := (mul_one_dec tick).symm
      _ ≤ Dec.mul tick c := mul_mono_right (by omega) (by decide) hc1
  have := isCeil_up (show 0 < Dec.mul tick c by omega) prec
  refine ⟨priceToUpTick (Dec.mul tick c) prec, ?_, le_trans h2 this.2.1, this.1⟩
  unfold priceToUpTick?
  rw [if_neg (by omega)]

end Verif.Amm

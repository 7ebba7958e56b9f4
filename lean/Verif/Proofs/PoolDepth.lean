import Verif.Proofs.PoolSell
import Verif.Spec.Pool
/-! Monotonicity of the depth functions of pools (x/dex/amm/pool.go:114-149, :359-403). -/
namespace Verif.Amm
open Verif Verif.Dec Verif.Spec

theorem sound_price {p : Pool} {pp : Int} (hs : SoundPool p) (h : p.price = some pp) : 0 ≤ pp := by
  cases hr : p.range with
  | none => exact price_nonneg_basic hs.rx_nonneg hs.ry_nonneg hr h
  | some r =>
    unfold Pool.price at h
    rw [hr] at h
    simp only at h
    split at h
    · simp at h
    · unfold quo? at h
      split at h
      · simp at h
      · simp only [Option.some.injEq] at h
        rw [← h]
        have := Int.mul_nonneg hs.rx_nonneg (le_of_lt one_pos')
        have := Int.mul_nonneg hs.ry_nonneg (le_of_lt one_pos')
        have := hs.transX_nonneg
        have := hs.transY_nonneg
        apply quo_nonneg_dec
        · unfold Pool.xComp ofInt; omega
        · unfold Pool.yComp ofInt; omega

/-- Quote amount with which the pool buys down to `price`. -/
def Pool.dx (p : Pool) (price : Int) : Int :=
  match p.range with
  | none => ofInt p.rx - mulInt price p.ry
  | some _ => min (p.xComp - Dec.mul price p.yComp) (ofInt p.rx)

theorem buy_eq {p : Pool} {pp op : Int} (hrx : 0 ≤ p.rx) (hpp : p.price = some pp) (hop : 0 < op) :
    p.buyAmountOver op = some (if pp ≤ max op p.floorPrice ∨ p.dx (max op p.floorPrice) ≤ 0 then 0
      else min (p.dx (max op p.floorPrice) / op) maxCoinAmount) := by
  have hro : 0 ≤ ofInt p.rx := Int.mul_nonneg hrx (le_of_lt one_pos')
  have e : (if op < p.floorPrice then p.floorPrice else op) = max op p.floorPrice := by
    split
    · rw [max_eq_right (by omega)]
    · rw [max_eq_left (by omega)]
  unfold Pool.buyAmountOver
  simp only [e, hpp]
  generalize max op p.floorPrice = price
  by_cases h1 : price ≥ pp
  · rw [if_pos h1, if_pos (Or.inl h1)]
  · rw [if_neg h1]
    unfold Pool.dx
    cases hr : p.range with
    | none =>
      simp only
      by_cases h2 : 0 < ofInt p.rx - mulInt price p.ry
      · rw [if_neg (by omega), if_neg (by omega), cappedQuo_eq (by omega) hop]
      · rw [if_pos h2, if_pos (Or.inr (by omega))]
    | some r =>
      simp only
      by_cases h2 : 0 < p.xComp - Dec.mul price p.yComp
      · rw [if_neg (by omega)]
        have e2 : (if p.xComp - Dec.mul price p.yComp > ofInt p.rx then ofInt p.rx else p.xComp - Dec.mul price p.yComp) =
            min (p.xComp - Dec.mul price p.yComp) (ofInt p.rx) := by
          split
          · rw [min_eq_right (by omega)]
          · rw [min_eq_left (by omega)]
        rw [e2, cappedQuo_eq (le_min (by omega) hro) hop]
        split
        · rename_i h3
          have h4 : min (p.xComp - Dec.mul price p.yComp) (ofInt p.rx) = 0 := by
            have : 0 ≤ min (p.xComp - Dec.mul price p.yComp) (ofInt p.rx) := le_min (by omega) hro
            omega
          rw [h4]
          simp [maxCoinAmount]
        · rfl
      · rw [if_pos h2, if_pos (Or.inr (le_trans (min_le_left _ _) (by omega)))]

theorem dx_anti {p : Pool} (hs : SoundPool p) {a b : Int} (ha : 0 ≤ a) (h : a ≤ b) : p.dx b ≤ p.dx a := by
  unfold Pool.dx
  cases hr : p.range with
  | none =>
    simp only
    unfold mulInt
    have := Int.mul_le_mul_of_nonneg_right h hs.ry_nonneg
    omega
  | some r =>
    simp only
    apply min_le_min _ (le_refl _)
    have hy : 0 ≤ p.yComp := by
      have := Int.mul_nonneg hs.ry_nonneg (le_of_lt one_pos')
      have := hs.transY_nonneg
      unfold Pool.yComp ofInt; omega
    have := mul_mono_left ha hy h
    omega

theorem buy_anti {p : Pool} {pp a b : Int} (hs : SoundPool p) (hpp : p.price = some pp) (ha : 0 < a) (hab : a ≤ b) :
    ∃ x y, p.buyAmountOver a = some x ∧ p.buyAmountOver b = some y ∧ 0 ≤ y ∧ y ≤ x := by
  refine ⟨_, _, buy_eq hs.rx_nonneg hpp ha, buy_eq hs.rx_nonneg hpp (by omega), ?_, ?_⟩
  · exact (buyAmountOver_facts hs.rx_nonneg hs.ry_nonneg (by omega) (buy_eq hs.rx_nonneg hpp (by omega))).1
  · have hm : max a p.floorPrice ≤ max b p.floorPrice := max_le_max hab (le_refl _)
    have hm0 : 0 < max a p.floorPrice := lt_of_lt_of_le ha (le_max_left _ _)
    have hd := dx_anti hs (le_of_lt hm0) hm
    have hx := (buyAmountOver_facts hs.rx_nonneg hs.ry_nonneg ha (buy_eq hs.rx_nonneg hpp ha)).1
    by_cases hB : pp ≤ max b p.floorPrice ∨ p.dx (max b p.floorPrice) ≤ 0
    · rw [if_pos hB]; exact hx
    · rw [if_neg hB, if_neg (by omega)]
      apply min_le_min _ (le_refl _)
      apply ediv_le_ediv_cross (by omega) ha
      push Not at hB
      nlinarith

/-- Base amount which the pool sells up to `price`. -/
def Pool.dy (p : Pool) (price : Int) : Int :=
  match p.range with
  | none => truncateInt (ofInt p.ry - quoRoundUp (ofInt p.rx) price)
  | some _ => min (truncateInt (p.yComp - quoRoundUp p.xComp price)) p.ry

theorem sell_eq {p : Pool} {pp op : Int} (hpp : p.price = some pp) (hpn : 0 ≤ pp) :
    p.sellAmountUnder op = some (if min op p.ceilPrice ≤ pp then 0 else max (p.dy (min op p.ceilPrice)) 0) := by
  have e : (if op > p.ceilPrice then p.ceilPrice else op) = min op p.ceilPrice := by
    split
    · rw [min_eq_right (by omega)]
    · rw [min_eq_left (by omega)]
  have emax : ∀ a : Int, (if ¬ 0 < a then 0 else a) = max a 0 := by
    intro a
    split
    · rw [max_eq_right (by omega)]
    · rw [max_eq_left (by omega)]
  unfold Pool.sellAmountUnder
  simp only [e, hpp]
  generalize min op p.ceilPrice = price
  split
  · rfl
  · rw [if_neg (by omega)]
    unfold Pool.dy
    cases hr : p.range with
    | none => simp only [emax]
    | some r =>
      simp only [emax]
      have emin : ∀ a : Int, (if a > p.ry then p.ry else a) = min a p.ry := by
        intro a
        split
        · rw [min_eq_right (by omega)]
        · rw [min_eq_left (by omega)]
      rw [emin]

theorem dy_mono {p : Pool} (hs : SoundPool p) {a b : Int} (ha : 0 < a) (h : a ≤ b) : p.dy a ≤ p.dy b := by
  have hx : 0 ≤ ofInt p.rx := Int.mul_nonneg hs.rx_nonneg (le_of_lt one_pos')
  unfold Pool.dy
  cases hr : p.range with
  | none =>
    simp only
    apply truncateInt_mono
    have := quoRoundUp_anti hx ha h
    omega
  | some r =>
    simp only
    apply min_le_min _ (le_refl _)
    apply truncateInt_mono
    have hxc : 0 ≤ p.xComp := by have := hs.transX_nonneg; unfold Pool.xComp; omega
    have := quoRoundUp_anti hxc ha h
    omega

theorem sell_mono {p : Pool} {pp a b : Int} (hs : SoundPool p) (hpp : p.price = some pp) (hab : a ≤ b) :
    ∃ x y, p.sellAmountUnder a = some x ∧ p.sellAmountUnder b = some y ∧ 0 ≤ x ∧ x ≤ y ∧ y ≤ p.ry := by
  have hpn := sound_price hs hpp
  refine ⟨_, _, sell_eq hpp hpn, sell_eq hpp hpn, ?_, ?_, ?_⟩
  · split
    · exact le_refl _
    · exact le_max_right _ _
  · have hm : min a p.ceilPrice ≤ min b p.ceilPrice := min_le_min hab (le_refl _)
    split
    · split
      · exact le_refl _
      · exact le_max_right _ _
    · rw [if_neg (by omega)]
      exact max_le_max (dy_mono hs (by omega) hm) (le_refl _)
  · exact (sellAmountUnder_facts hs.ry_nonneg (fun _ => hs.rx_nonneg) (sell_eq (op := b) hpp hpn)).2.1

theorem not_both {p : Pool} {op x y : Int} (hx : p.buyAmountOver op = some x) (hy : p.sellAmountUnder op = some y) :
    x = 0 ∨ y = 0 := by
  unfold Pool.buyAmountOver at hx
  unfold Pool.sellAmountUnder at hy
  simp only at hx hy
  have h1 : op ≤ (if op < p.floorPrice then p.floorPrice else op) := by split <;> omega
  have h2 : (if op > p.ceilPrice then p.ceilPrice else op) ≤ op := by split <;> omega
  generalize (if op < p.floorPrice then p.floorPrice else op) = u at *
  generalize (if op > p.ceilPrice then p.ceilPrice else op) = v at *
  cases hpp : p.price with
  | none => rw [hpp] at hx; simp at hx
  | some pp =>
    rw [hpp] at hx hy
    simp only at hx hy
    by_cases hb : u ≥ pp
    · rw [if_pos hb] at hx; simp at hx; left; exact hx.symm
    · rw [if_pos (by omega)] at hy; simp at hy; right; exact hy.symm

theorem pool_view_monotone {p : Pool} {pp : Int} (hs : SoundPool p) (hpp : p.price = some pp) : MonotoneView p.toView := by
  refine ⟨fun a b ha hab => ?_, fun a b _ hab => ?_, fun a ha => ?_, fun a _ => ?_, ?_⟩
  · obtain ⟨x, y, h1, h2, _, h4⟩ := buy_anti hs hpp ha hab
    show (p.buyAmountOver b).getD 0 ≤ (p.buyAmountOver a).getD 0
    rw [h1, h2]; exact h4
  · obtain ⟨x, y, h1, h2, _, h4, _⟩ := sell_mono hs hpp hab
    show (p.sellAmountUnder a).getD 0 ≤ (p.sellAmountUnder b).getD 0
    rw [h1, h2]; exact h4
  · obtain ⟨x, y, h1, h2, h3, _⟩ := buy_anti hs hpp ha (le_refl a)
    show 0 ≤ (p.buyAmountOver a).getD 0
    rw [h2]; exact h3
  · obtain ⟨x, y, h1, h2, h3, _⟩ := sell_mono hs hpp (le_refl a)
    show 0 ≤ (p.sellAmountUnder a).getD 0
    rw [h1]; exact h3
  · show (p.sellAmountUnder 0).getD 0 = 0
    have hpn := sound_price hs hpp
    rw [sell_eq hpp hpn, if_pos (le_trans (min_le_left _ _) hpn)]
    rfl

theorem approxSqrtLoop_nonneg {d : Int} (hd : 0 ≤ d) : ∀ (n : Nat) (g δ : Int), 0 ≤ g → 0 ≤ approxSqrtLoop d n g δ := by
  intro n
  induction n with
  | zero => intro g δ hg; exact hg
  | succ k ih =>
    intro g δ hg
    rw [approxSqrtLoop]
    split
    · apply ih
      have hq : 0 ≤ Dec.quo d (if g = 0 then 1 else g) := quo_nonneg_dec hd (by split <;> omega)
      generalize Dec.quo d (if g = 0 then 1 else g) = q at *
      have : -g ≤ (q - g).tdiv 2 := by
        by_cases h : 0 ≤ q - g
        · have := Int.tdiv_nonneg h (show (0:Int) ≤ 2 by omega)
          omega
        · have e : (q - g).tdiv 2 = -((g - q) / 2) := by
            rw [show q - g = -(g - q) by ring, Int.neg_tdiv, Int.tdiv_eq_ediv_of_nonneg (by omega)]
          omega
      omega
    · exact hg

/-- The square-root routine has the one property the theorems need. -/
theorem approxSqrt_nonneg (d : Int) (hd : 0 ≤ d) : 0 ≤ approxSqrt d := by
  unfold approxSqrt
  simp only
  rw [if_neg (by omega)]
  split
  · exact hd
  · exact approxSqrtLoop_nonneg hd _ _ _ (le_of_lt one_pos')

end Verif.Amm

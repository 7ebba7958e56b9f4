import Verif.Model.Pool
import Verif.Proofs.Dec
/-! Deposit and withdrawal arithmetic (x/dex/amm/pool.go:477-532). -/
namespace Verif.Amm
open Verif Verif.Dec

theorem trunc_nn {a : Int} (h : 0 ≤ a) : truncateInt a = a / one := by
  unfold truncateInt; exact Int.tdiv_eq_ediv_of_nonneg h

theorem mulTrunc_nn {a b : Int} (h : 0 ≤ a * b) : mulTruncate a b = a * b / one := by
  unfold mulTruncate; exact Int.tdiv_eq_ediv_of_nonneg h

theorem quoTrunc_nn {a b : Int} (h : 0 ≤ a) : quoTruncate a b = a * one / b := by
  unfold quoTruncate; exact Int.tdiv_eq_ediv_of_nonneg (Int.mul_nonneg h (le_of_lt one_pos'))

/-- `trunc(ceil(a))` is the ceiling. -/
theorem truncCeil {a : Int} (h : 0 ≤ a) :
    a ≤ truncateInt (ceil a) * one ∧ truncateInt (ceil a) * one < a + one ∧ 0 ≤ truncateInt (ceil a) := by
  unfold ceil truncateInt
  simp only
  have e1 : a.tdiv one = a / one := Int.tdiv_eq_ediv_of_nonneg h
  have e2 : a.tmod one = a % one := Int.tmod_eq_emod_of_nonneg h
  rw [e1, e2]
  have hq : 0 ≤ a / one := Int.ediv_nonneg h (le_of_lt one_pos')
  have hm := Int.mul_ediv_add_emod a one
  have hl := Int.emod_lt_of_pos a one_pos'
  have hn := Int.emod_nonneg a (ne_of_gt one_pos')
  split
  · rw [Int.mul_tdiv_cancel _ (ne_of_gt one_pos')]
    have e : (a / one + 1) * one = one * (a / one) + one := by ring
    refine ⟨?_, ?_, by omega⟩ <;> omega
  · rw [Int.mul_tdiv_cancel _ (ne_of_gt one_pos')]
    have e : (a / one) * one = one * (a / one) := by ring
    refine ⟨?_, ?_, by omega⟩ <;> omega

theorem truncCeil_le {a k : Int} (h : 0 ≤ a) (hk : a ≤ k * one) : truncateInt (ceil a) ≤ k := by
  have := (truncCeil h).2.1
  have h1 : truncateInt (ceil a) * one < (k + 1) * one := by
    have : (k + 1) * one = k * one + one := by ring
    omega
  have := lt_of_mul_lt_mul_right h1 (le_of_lt one_pos')
  omega

theorem truncCeil_zero : truncateInt (ceil 0) = 0 := by decide

theorem mul_ofInt (a b : Int) : Dec.mul (ofInt a) b = a * b := by
  unfold Dec.mul ofInt
  have : a * one * b = (a * b) * one := by ring
  rw [this, chop_int]

theorem ediv_mul_le' {a b : Int} (hb : 0 < b) : a / b * b ≤ a := Int.ediv_mul_le a (ne_of_gt hb)

theorem lt_ediv_add_one_mul' {a b : Int} (hb : 0 < b) : a < (a / b + 1) * b := Int.lt_ediv_add_one_mul_self a hb

theorem ratio_nn {x r : Int} (hx : 0 ≤ x) (hr : 0 < r) :
    quoTruncate (ofInt x) (ofInt r) = x * one / r := by
  unfold ofInt
  rw [quoTrunc_nn (Int.mul_nonneg hx (le_of_lt one_pos'))]
  exact Int.mul_ediv_mul_of_pos_left (x * one) r one_pos'

theorem quo_ofInt {a b : Int} (ha : 0 ≤ a) (hb : 0 < b) :
    Dec.quo (ofInt a) (ofInt b) = chopRound (a * one * one / b) := by
  unfold Dec.quo ofInt
  have h1 : (0 : Int) ≤ a * one := Int.mul_nonneg ha (le_of_lt one_pos')
  rw [Int.tdiv_eq_ediv_of_nonneg (Int.mul_nonneg (Int.mul_nonneg h1 (le_of_lt one_pos')) (le_of_lt one_pos'))]
  have : a * one * one * one = (a * one * one) * one := by ring
  rw [Int.mul_ediv_mul_of_pos_left _ _ one_pos']

/-- The numbers of a deposit. -/
structure DepositFacts (r ps off acc pc mp : Int) : Prop where
  acc_nonneg : 0 ≤ acc
  acc_le : acc ≤ off
  share : pc * r ≤ off * ps
  cover : r * mp ≤ acc * one

theorem mp_facts {ps pc ratio : Int} (hps : 0 < ps) (hr : 0 ≤ ratio) (hpc : pc = ps * ratio / one) :
    0 ≤ pc ∧ pc * one ≤ ps * ratio ∧
    0 ≤ chopRound (pc * one * one / ps) ∧ chopRound (pc * one * one / ps) ≤ ratio ∧
    2 * pc * one * one - ps * (one + 2) ≤ 2 * (chopRound (pc * one * one / ps) * one * ps) := by
  have h0 : 0 ≤ pc := by rw [hpc]; exact Int.ediv_nonneg (Int.mul_nonneg (le_of_lt hps) hr) (le_of_lt one_pos')
  have h1 : pc * one ≤ ps * ratio := by rw [hpc]; exact ediv_mul_le' one_pos'
  have hn : 0 ≤ pc * one * one / ps :=
    Int.ediv_nonneg (Int.mul_nonneg (Int.mul_nonneg h0 (le_of_lt one_pos')) (le_of_lt one_pos')) (le_of_lt hps)
  refine ⟨h0, h1, chop_nonneg hn, ?_, ?_⟩
  · have h2 : pc * one * one / ps ≤ ratio * one := by
      have h3 : pc * one * one ≤ (ratio * one) * ps := by nlinarith [one_pos']
      calc pc * one * one / ps ≤ ((ratio * one) * ps) / ps := Int.ediv_le_ediv hps h3
        _ = ratio * one := Int.mul_ediv_cancel _ (ne_of_gt hps)
    calc chopRound (pc * one * one / ps) ≤ chopRound (ratio * one) := chop_mono_nn hn h2
      _ = ratio := chop_int
  · have hb := (chop_bounds hn).1
    have hl := @lt_ediv_add_one_mul' (pc * one * one) ps hps
    nlinarith

theorem acc_facts {r ps off pc mp ratio : Int} (hr : 0 ≤ r) (hps : 0 < ps) (hpc1 : pc * one ≤ ps * ratio)
    (hmp : 0 ≤ mp) (hmr : mp ≤ ratio) (hro : r * ratio ≤ off * one) :
    DepositFacts r ps off (truncateInt (ceil (Dec.mul (ofInt r) mp))) pc mp := by
  rw [mul_ofInt]
  have hn : 0 ≤ r * mp := Int.mul_nonneg hr hmp
  refine ⟨(truncCeil hn).2.2, truncCeil_le hn (le_trans (Int.mul_le_mul_of_nonneg_left hmr hr) hro), ?_,
    (truncCeil hn).1⟩
  have : pc * r * one ≤ off * ps * one := by
    have h1 : pc * one * r ≤ ps * ratio * r := Int.mul_le_mul_of_nonneg_right hpc1 hr
    have h2 : r * ratio * ps ≤ off * one * ps := Int.mul_le_mul_of_nonneg_right hro (le_of_lt hps)
    nlinarith
  exact le_of_mul_le_mul_right this one_pos'

theorem ratio_le {x r : Int} (hr : 0 < r) : r * (x * one / r) ≤ x * one := by
  have := @ediv_mul_le' (x * one) r hr
  rw [Int.mul_comm]; exact this

theorem depositRatio_facts {rx ry x y : Int} (hrx : 0 ≤ rx) (hry : 0 ≤ ry) (hx : 0 ≤ x) (hy : 0 ≤ y)
    (hpos : 0 < rx ∨ 0 < ry) :
    ∃ ratio, depositRatio rx ry x y = some ratio ∧ 0 ≤ ratio ∧ rx * ratio ≤ x * one ∧ ry * ratio ≤ y * one := by
  have ho := one_pos'
  unfold depositRatio
  have hxo := Int.mul_nonneg hx (le_of_lt ho)
  have hyo := Int.mul_nonneg hy (le_of_lt ho)
  split
  · rename_i h
    have hry' : 0 < ry := by omega
    rw [if_neg (by omega), ratio_nn hy hry']
    exact ⟨_, rfl, Int.ediv_nonneg hyo hry, by rw [h]; simpa using hxo, ratio_le hry'⟩
  · rename_i h
    have hrx' : 0 < rx := by omega
    split
    · rename_i h2
      rw [ratio_nn hx hrx']
      exact ⟨_, rfl, Int.ediv_nonneg hxo hrx, ratio_le hrx', by rw [h2]; simpa using hyo⟩
    · rename_i h2
      have hry' : 0 < ry := by omega
      rw [ratio_nn hx hrx', ratio_nn hy hry']
      refine ⟨_, rfl, ?_, ?_, ?_⟩
      · exact le_min (Int.ediv_nonneg hxo hrx) (Int.ediv_nonneg hyo hry)
      · exact le_trans (Int.mul_le_mul_of_nonneg_left (min_le_left _ _) hrx) (ratio_le hrx')
      · exact le_trans (Int.mul_le_mul_of_nonneg_left (min_le_right _ _) hry) (ratio_le hry')

/-- Everything about a deposit that did not overflow. -/
theorem deposit_facts {rx ry ps x y : Int} (hrx : 0 ≤ rx) (hry : 0 ≤ ry) (hx : 0 ≤ x) (hy : 0 ≤ y)
    (hps : 0 < ps) (hpos : 0 < rx ∨ 0 < ry) :
    ∃ ax ay pc mp, deposit false rx ry ps x y = some (ax, ay, pc) ∧ 0 ≤ pc ∧ 0 ≤ mp ∧
      2 * pc * one * one - ps * (one + 2) ≤ 2 * (mp * one * ps) ∧ (pc = 0 → mp = 0) ∧
      DepositFacts rx ps x ax pc mp ∧ DepositFacts ry ps y ay pc mp ∧
      (mp = 0 → ax = 0 ∧ ay = 0) := by
  obtain ⟨ratio, hr, hr0, hr1, hr2⟩ := depositRatio_facts hrx hry hx hy hpos
  have hpce : truncateInt (mulTruncate (ofInt ps) ratio) = ps * ratio / one := by
    have h1 : 0 ≤ ps * ratio := Int.mul_nonneg (le_of_lt hps) hr0
    have h2 : ofInt ps * ratio = (ps * ratio) * one := by unfold ofInt; ring
    rw [mulTrunc_nn (by rw [h2]; exact Int.mul_nonneg h1 (le_of_lt one_pos')), h2,
      Int.mul_ediv_cancel _ (ne_of_gt one_pos'), trunc_nn h1]
  obtain ⟨f0, f1, f2, f3, f4⟩ := mp_facts hps hr0 (rfl : ps * ratio / one = ps * ratio / one)
  have hops : ofInt ps ≠ 0 := by unfold ofInt; have := Int.mul_pos hps one_pos'; omega
  refine ⟨_, _, ps * ratio / one, chopRound ((ps * ratio / one) * one * one / ps), ?_, f0, f2, f4, ?_,
    acc_facts hrx hps f1 f2 f3 hr1, acc_facts hry hps f1 f2 f3 hr2, ?_⟩
  · unfold deposit
    simp only [Bool.false_eq_true, if_false]
    rw [hr]
    simp only [Option.bind_eq_bind, Option.bind_some, hpce]
    unfold quo?
    rw [if_neg hops, quo_ofInt f0 hps]
    rfl
  · intro h; rw [h]; simp; decide
  · intro h; rw [h]; simp [mul_ofInt]; decide

/-- One coordinate of a withdrawal. -/
def withdrawOne (r ps pc fee : Int) : Int :=
  truncateInt (mulTruncate (mulTruncate (ofInt r) (quoTruncate (ofInt pc) (ofInt ps))) (one - fee))

theorem withdrawOne_facts {r ps pc fee : Int} (hr : 0 ≤ r) (hps : 0 < ps) (hpc : 0 ≤ pc) (hf : fee ≤ one) :
    0 ≤ withdrawOne r ps pc fee ∧ withdrawOne r ps pc fee * ps * one ≤ r * pc * (one - fee) := by
  unfold withdrawOne
  rw [ratio_nn hpc hps]
  have hq : 0 ≤ pc * one / ps := Int.ediv_nonneg (Int.mul_nonneg hpc (le_of_lt one_pos')) (le_of_lt hps)
  have h1 : 0 ≤ r * (pc * one / ps) := Int.mul_nonneg hr hq
  have e1 : ofInt r * (pc * one / ps) = (r * (pc * one / ps)) * one := by unfold ofInt; ring
  have e2 : mulTruncate (ofInt r) (pc * one / ps) = r * (pc * one / ps) := by
    rw [mulTrunc_nn (by rw [e1]; exact Int.mul_nonneg h1 (le_of_lt one_pos')), e1,
      Int.mul_ediv_cancel _ (ne_of_gt one_pos')]
  rw [e2]
  have hm : 0 ≤ one - fee := by omega
  have h2 : 0 ≤ r * (pc * one / ps) * (one - fee) := Int.mul_nonneg h1 hm
  rw [mulTrunc_nn h2]
  have h3 : 0 ≤ r * (pc * one / ps) * (one - fee) / one := Int.ediv_nonneg h2 (le_of_lt one_pos')
  rw [trunc_nn h3]
  refine ⟨Int.ediv_nonneg h3 (le_of_lt one_pos'), ?_⟩
  generalize hd : r * (pc * one / ps) * (one - fee) / one = d at *
  have k1 : d / one * one ≤ d := ediv_mul_le' one_pos'
  have k2 : d * one ≤ r * (pc * one / ps) * (one - fee) := by rw [← hd]; exact ediv_mul_le' one_pos'
  have k3 : (pc * one / ps) * ps ≤ pc * one := ediv_mul_le' hps
  have k4 : d / one * one * one ≤ r * (pc * one / ps) * (one - fee) := le_trans (Int.mul_le_mul_of_nonneg_right k1 (le_of_lt one_pos')) k2
  have k5 : d / one * one * one * ps ≤ r * (pc * one / ps) * (one - fee) * ps :=
    Int.mul_le_mul_of_nonneg_right k4 (le_of_lt hps)
  have k6 : r * (one - fee) * ((pc * one / ps) * ps) ≤ r * (one - fee) * (pc * one) :=
    Int.mul_le_mul_of_nonneg_left k3 (Int.mul_nonneg hr hm)
  have k7 : (d / one * ps * one) * one ≤ (r * pc * (one - fee)) * one := by nlinarith
  exact le_of_mul_le_mul_right k7 one_pos'

theorem withdraw_eq {rx ry ps pc fee : Int} (h : pc ≠ ps) (hps : ps ≠ 0) :
    withdraw false rx ry ps pc fee = some (withdrawOne rx ps pc fee, withdrawOne ry ps pc fee) := by
  unfold withdraw
  rw [if_neg h]
  simp only [Bool.false_eq_true, if_false]
  rw [if_neg hps]
  rfl

/-- The profit of depositing and withdrawing is bounded. -/
theorem roundtrip {r ps off acc pc mp out : Int} (hr : 0 ≤ r) (hps : 0 < ps) (hpc : 0 ≤ pc)
    (f : DepositFacts r ps off acc pc mp) (hmp : 2 * pc * one * one - ps * (one + 2) ≤ 2 * (mp * one * ps))
    (hout : out * (ps + pc) ≤ (r + acc) * pc) : 2 * one * one * (out - acc) ≤ r * (one + 2) := by
  have ho := one_pos'
  have c1 : r * mp * (one * ps) ≤ acc * one * (one * ps) :=
    Int.mul_le_mul_of_nonneg_right f.cover (Int.mul_nonneg (le_of_lt ho) (le_of_lt hps))
  have c2 : r * (2 * pc * one * one - ps * (one + 2)) ≤ r * (2 * (mp * one * ps)) := Int.mul_le_mul_of_nonneg_left hmp hr
  -- 2·acc·one²·ps ≥ 2·r·pc·one² − r·ps·(one+2)
  have c3 : 2 * r * pc * one * one - r * ps * (one + 2) ≤ 2 * acc * one * one * ps := by nlinarith
  have c4 : (2 * one * one) * (out * (ps + pc)) ≤ (2 * one * one) * ((r + acc) * pc) :=
    Int.mul_le_mul_of_nonneg_left hout (by nlinarith)
  have c5 : 2 * one * one * (out - acc) * (ps + pc) ≤ r * (one + 2) * ps := by nlinarith
  by_contra hc
  push Not at hc
  have c6 : 0 ≤ r * (one + 2) := Int.mul_nonneg hr (by omega)
  have c7 : r * (one + 2) * (ps + pc) < 2 * one * one * (out - acc) * (ps + pc) :=
    Int.mul_lt_mul_of_pos_right hc (by omega)
  have c8 : r * (one + 2) * ps ≤ r * (one + 2) * (ps + pc) := Int.mul_le_mul_of_nonneg_left (by omega) c6
  omega

end Verif.Amm

import Verif.Proofs.Liquidity
import Verif.Proofs.LiquidityLower
/-! # C07-C10: deposits and withdrawals

`Dec.one = 10^18` is the decimal 1; amounts (reserves `rx`, `ry`, supply `ps`, ...) are integers.  `overflow` is the
outcome of the arithmetic-overflow check of the library, over which the theorems quantify. -/
namespace Verif.Props
open Verif Verif.Amm

/-- C07: a deposit into a pool with positive supply and some reserve does not panic, takes at most what was offered of
each coin, everything is non-negative, and nothing is taken when no pool coin is minted. -/
theorem C07_deposit_at_most_offered (overflow : Bool) (rx ry ps x y : Int) (hrx : 0 ≤ rx) (hry : 0 ≤ ry)
    (hpos : 0 < rx ∨ 0 < ry) (hps : 0 < ps) (hx : 0 ≤ x) (hy : 0 ≤ y) :
    ∃ ax ay pc, deposit overflow rx ry ps x y = some (ax, ay, pc) ∧
      0 ≤ ax ∧ ax ≤ x ∧ 0 ≤ ay ∧ ay ≤ y ∧ 0 ≤ pc ∧ (pc = 0 → ax = 0 ∧ ay = 0) := by
  cases overflow with
  | true => exact ⟨0, 0, 0, rfl, by omega, hx, by omega, hy, by omega, fun _ => ⟨rfl, rfl⟩⟩
  | false =>
    obtain ⟨ax, ay, pc, mp, he, h1, _, _, h4, f, g, h5⟩ := deposit_facts hrx hry hx hy hps hpos
    exact ⟨ax, ay, pc, he, f.acc_nonneg, f.acc_le, g.acc_nonneg, g.acc_le, h1, fun h => h5 (h4 h)⟩

example : deposit false 1000003 777 1000000 123456 98 = some (123456, 96, 123455) := by decide +kernel

/-- C07: the code really panics (division by zero) on a pool whose reserves are both zero, or without supply; the
keeper's depletion check is what keeps such pools away. -/
theorem C07_needs_a_reserve_and_supply (x y ps rx ry : Int) :
    deposit false 0 0 ps x y = none ∧ deposit false rx ry 0 x y = none := by
  constructor
  · unfold deposit depositRatio; simp
  · unfold deposit
    simp only [Bool.false_eq_true, if_false]
    cases depositRatio rx ry x y with
    | none => rfl
    | some r => simp [quo?, Dec.ofInt]

/-- C08: the minted share of the supply never exceeds the offered share of either reserve, and what is taken covers the
minted share of each reserve up to `r * (0.5e-18 + 1e-36)`. -/
theorem C08_dilution_bounded (overflow : Bool) (rx ry ps x y ax ay pc : Int) (hrx : 0 ≤ rx) (hry : 0 ≤ ry)
    (hpos : 0 < rx ∨ 0 < ry) (hps : 0 < ps) (hx : 0 ≤ x) (hy : 0 ≤ y)
    (h : deposit overflow rx ry ps x y = some (ax, ay, pc)) :
    pc * rx ≤ x * ps ∧ pc * ry ≤ y * ps ∧
    2 * 10 ^ 36 * (rx * pc - ax * ps) ≤ rx * ps * (10 ^ 18 + 2) ∧
    2 * 10 ^ 36 * (ry * pc - ay * ps) ≤ ry * ps * (10 ^ 18 + 2) := by
  cases overflow with
  | true =>
    simp only [deposit, if_true, Option.some.injEq, Prod.mk.injEq] at h
    obtain ⟨rfl, rfl, rfl⟩ := h
    have := Int.mul_nonneg hx hps.le
    have := Int.mul_nonneg hy hps.le
    have := Int.mul_nonneg hrx hps.le
    have := Int.mul_nonneg hry hps.le
    refine ⟨by omega, by omega, by omega, by omega⟩
  | false =>
    obtain ⟨ax', ay', pc', mp, he, h1, h2, h3, h4, f, g, h5⟩ := deposit_facts hrx hry hx hy hps hpos
    rw [he] at h
    simp only [Option.some.injEq, Prod.mk.injEq] at h
    obtain ⟨rfl, rfl, rfl⟩ := h
    have key : ∀ r off acc, 0 ≤ r → DepositFacts r ps off acc pc' mp →
        2 * 10 ^ 36 * (r * pc' - acc * ps) ≤ r * ps * (10 ^ 18 + 2) := by
      intro r off acc hr f
      have ho := Dec.one_pos'
      have c1 : r * mp * (Dec.one * ps) ≤ acc * Dec.one * (Dec.one * ps) :=
        Int.mul_le_mul_of_nonneg_right f.cover (Int.mul_nonneg (le_of_lt ho) (le_of_lt hps))
      have c2 := Int.mul_le_mul_of_nonneg_left h3 hr
      have e : (10 : Int) ^ 18 = Dec.one := by decide
      have e2 : (10 : Int) ^ 36 = Dec.one * Dec.one := by decide
      rw [e, e2]
      nlinarith
    exact ⟨f.share, g.share, key _ _ _ hrx f, key _ _ _ hry g⟩

/-- C08: exact coverage is false: here the accepted amount of the first coin is less than the minted share of the
reserve, so existing holders are diluted (by less than one unit). -/
theorem C08_exact_coverage_fails : ∃ rx ry ps x y ax ay pc, 0 < rx ∧ 0 < ry ∧ 0 < ps ∧ 0 < x ∧ 0 < y ∧
    deposit false rx ry ps x y = some (ax, ay, pc) ∧ ax * ps < rx * pc :=
  ⟨577765716373588, 2491, 3000000, 5831720653483627128901, 718128, 166563523910842538, 718128, 864867121,
    by decide, by decide, by decide, by decide, by decide, by decide +kernel, by decide⟩

/-- C09: a withdrawal of part of the supply pays at most the proportional share minus the fee, never a negative amount,
and the value of every remaining pool coin does not decrease; redeeming the whole supply pays exactly the reserves. -/
theorem C09_withdraw_at_most_share (overflow : Bool) (rx ry ps pc fee : Int) (hrx : 0 ≤ rx) (hry : 0 ≤ ry)
    (hps : 0 < ps) (hpc : 0 ≤ pc) (hle : pc ≤ ps) (hfee : 0 ≤ fee) (hfee1 : fee ≤ Dec.one) :
    ∃ x y, withdraw overflow rx ry ps pc fee = some (x, y) ∧ 0 ≤ x ∧ x ≤ rx ∧ 0 ≤ y ∧ y ≤ ry ∧
      (pc = ps → x = rx ∧ y = ry) ∧
      (pc < ps → x * ps * Dec.one ≤ rx * pc * (Dec.one - fee) ∧ y * ps * Dec.one ≤ ry * pc * (Dec.one - fee)) ∧
      -- per-coin value of the remaining supply: (rx - x) / (ps - pc) ≥ rx / ps
      rx * (ps - pc) ≤ (rx - x) * ps ∧ ry * (ps - pc) ≤ (ry - y) * ps := by
  by_cases h : pc = ps
  · refine ⟨rx, ry, by unfold withdraw; rw [if_pos h], hrx, le_refl _, hry, le_refl _, fun _ => ⟨rfl, rfl⟩,
      fun h' => by omega, ?_, ?_⟩ <;> rw [h] <;> simp
  · have hlt : pc < ps := by omega
    have key : ∀ r v, 0 ≤ r → v * ps * Dec.one ≤ r * pc * (Dec.one - fee) → v * ps ≤ r * pc := by
      intro r v hr hv
      have h0 := Int.mul_nonneg (Int.mul_nonneg hr hpc) hfee
      have : v * ps * Dec.one ≤ r * pc * Dec.one := by nlinarith
      exact le_of_mul_le_mul_right this Dec.one_pos'
    have le_r : ∀ r v, 0 ≤ r → v * ps ≤ r * pc → v ≤ r := by
      intro r v hr hv
      have : v * ps ≤ r * ps := le_trans hv (Int.mul_le_mul_of_nonneg_left hle hr)
      exact le_of_mul_le_mul_right this hps
    cases overflow with
    | true =>
      have hm : 0 ≤ Dec.one - fee := by omega
      have a1 := Int.mul_nonneg (Int.mul_nonneg hrx hpc) hm
      have a2 := Int.mul_nonneg (Int.mul_nonneg hry hpc) hm
      have a3 := Int.mul_nonneg hrx hpc
      have a4 := Int.mul_nonneg hry hpc
      refine ⟨0, 0, by unfold withdraw; rw [if_neg h]; rfl, le_refl _, hrx, le_refl _, hry, fun h' => absurd h' h,
        fun _ => ⟨by omega, by omega⟩, ?_, ?_⟩
      · nlinarith
      · nlinarith
    | false =>
      obtain ⟨u1, u2⟩ := withdrawOne_facts hrx hps hpc hfee1
      obtain ⟨v1, v2⟩ := withdrawOne_facts hry hps hpc hfee1
      have k1 := key _ _ hrx u2
      have k2 := key _ _ hry v2
      refine ⟨_, _, withdraw_eq h (by omega), u1, le_r _ _ hrx k1, v1, le_r _ _ hry k2, fun h' => absurd h' h,
        fun _ => ⟨u2, v2⟩, ?_, ?_⟩
      · nlinarith
      · nlinarith

example : withdraw false 1000003 777 1000000 123456 3000000000000000 = some (123086, 95) := by decide +kernel

/-- C09: with a fee rate above 1 (accepted by the parameter validation) the "payout" is negative. -/
theorem C09_fee_above_one_negative : ∃ x y, withdraw false 1000 1000 100 50 (2 * Dec.one) = some (x, y) ∧ x < 0 :=
  ⟨-500, -500, by decide +kernel, by decide⟩

/-- C10: depositing and then withdrawing exactly the minted pool coins returns at most what was accepted, plus at most
`r * (0.5e-18 + 1e-36)` of each coin, for every fee rate in [0, 1]; for reserves up to `10^18` this means no profit. -/
theorem C10_no_profit (ov1 ov2 : Bool) (rx ry ps x y ax ay pc fee ox oy : Int) (hrx : 0 ≤ rx) (hry : 0 ≤ ry)
    (hpos : 0 < rx ∨ 0 < ry) (hps : 0 < ps) (hx : 0 ≤ x) (hy : 0 ≤ y) (hfee : 0 ≤ fee) (hfee1 : fee ≤ Dec.one)
    (h : deposit ov1 rx ry ps x y = some (ax, ay, pc))
    (hw : withdraw ov2 (rx + ax) (ry + ay) (ps + pc) pc fee = some (ox, oy)) :
    2 * 10 ^ 36 * (ox - ax) ≤ rx * (10 ^ 18 + 2) ∧ 2 * 10 ^ 36 * (oy - ay) ≤ ry * (10 ^ 18 + 2) ∧
    (rx ≤ 10 ^ 18 → ox ≤ ax) ∧ (ry ≤ 10 ^ 18 → oy ≤ ay) := by
  have e : (10 : Int) ^ 18 = Dec.one := by decide
  have e2 : (10 : Int) ^ 36 = Dec.one * Dec.one := by decide
  obtain ⟨ax', ay', pc', hd, hd1, hd2, hd3, hd4, hd5, _⟩ := C07_deposit_at_most_offered ov1 rx ry ps x y hrx hry hpos hps hx hy
  rw [hd] at h
  simp only [Option.some.injEq, Prod.mk.injEq] at h
  obtain ⟨rfl, rfl, rfl⟩ := h
  obtain ⟨ox', oy', hw', hw1, hw2, hw3, hw4, _, hw5, hw6, hw7⟩ := C09_withdraw_at_most_share ov2 (rx + ax') (ry + ay')
    (ps + pc') pc' fee (by omega) (by omega) (by omega) hd5 (by omega) hfee hfee1
  rw [hw'] at hw
  simp only [Option.some.injEq, Prod.mk.injEq] at hw
  obtain ⟨rfl, rfl⟩ := hw
  have b := C08_dilution_bounded ov1 rx ry ps x y ax' ay' pc' hrx hry hpos hps hx hy hd
  have key : ∀ r acc out, 0 ≤ r → 2 * 10 ^ 36 * (r * pc' - acc * ps) ≤ r * ps * (10 ^ 18 + 2) →
      (r + acc) * (ps + pc' - pc') ≤ (r + acc - out) * (ps + pc') →
      2 * 10 ^ 36 * (out - acc) ≤ r * (10 ^ 18 + 2) ∧ (r ≤ 10 ^ 18 → out ≤ acc) := by
    intro r acc out hr h1 h2
    have h3 : out * (ps + pc') ≤ (r + acc) * pc' := by nlinarith
    rw [e, e2] at *
    have ho := Dec.one_pos'
    have c4 : (2 * (Dec.one * Dec.one)) * (out * (ps + pc')) ≤ (2 * (Dec.one * Dec.one)) * ((r + acc) * pc') :=
      Int.mul_le_mul_of_nonneg_left h3 (by nlinarith)
    have c5 : 2 * (Dec.one * Dec.one) * (out - acc) * (ps + pc') ≤ r * (Dec.one + 2) * ps := by nlinarith
    have c6 : 0 ≤ r * (Dec.one + 2) := Int.mul_nonneg hr (by omega)
    have main : 2 * (Dec.one * Dec.one) * (out - acc) ≤ r * (Dec.one + 2) := by
      by_contra hc
      push Not at hc
      have c7 : r * (Dec.one + 2) * (ps + pc') < 2 * (Dec.one * Dec.one) * (out - acc) * (ps + pc') :=
        Int.mul_lt_mul_of_pos_right hc (by omega)
      have c8 : r * (Dec.one + 2) * ps ≤ r * (Dec.one + 2) * (ps + pc') := Int.mul_le_mul_of_nonneg_left (by omega) c6
      omega
    refine ⟨main, fun hle => ?_⟩
    by_contra hc
    push Not at hc
    have d1 : 2 * (Dec.one * Dec.one) ≤ 2 * (Dec.one * Dec.one) * (out - acc) := by
      have : (0:Int) ≤ 2 * (Dec.one * Dec.one) := by decide
      nlinarith
    have d2 : r * (Dec.one + 2) ≤ Dec.one * (Dec.one + 2) := Int.mul_le_mul_of_nonneg_right hle (by omega)
    have d3 : Dec.one * (Dec.one + 2) < 2 * (Dec.one * Dec.one) := by decide
    omega
  obtain ⟨k1, k2⟩ := key rx ax' ox' hrx b.2.2.1 hw6
  obtain ⟨k3, k4⟩ := key ry ay' oy' hry b.2.2.2 hw7
  exact ⟨k1, k3, k2, k4⟩

example : deposit false 1000003 777 1000000 123456 98 = some (123456, 96, 123455) ∧
    withdraw false (1000003 + 123456) (777 + 96) (1000000 + 123455) 123455 0 = some (123455, 95) := by decide +kernel

/-- C10: profit really occurs for huge reserves: here the depositor gets back one unit more than was taken. -/
theorem C10_profit_by_rounding : ∃ rx ry ps x y ax ay pc ox oy, 0 < rx ∧ 0 < ry ∧ 0 < ps ∧ 0 < x ∧ 0 < y ∧
    deposit false rx ry ps x y = some (ax, ay, pc) ∧
    withdraw false (rx + ax) (ry + ay) (ps + pc) pc 0 = some (ox, oy) ∧ ax < ox := by
  refine ⟨5653925837650704632, 4603, 3, 57776037440029281359066971, 2053, 1884641945883568209, 1535, 1,
    1884641945883568210, 1534, ?_⟩
  all_goals decide +kernel

/-- C63: when the arithmetic does not overflow, a deposit mints the full share that the offered coins allow: for at
least one of the two coins, one more pool coin would be worth more than was offered of it, up to `10^-18` of the reserve
(`x / rx < (pc + 1) / ps + 10^-18`).  And of each coin at most the minted share of the reserve is taken, rounded up
and up to `r * 0.5e-18` (`ax < 1 + rx * pc / ps + rx * 0.5e-18`). -/
theorem C63_deposit_not_shortchanged (rx ry ps x y ax ay pc : Int) (hrx : 0 ≤ rx) (hry : 0 ≤ ry)
    (hpos : 0 < rx ∨ 0 < ry) (hps : 0 < ps) (hx : 0 ≤ x) (hy : 0 ≤ y)
    (h : deposit false rx ry ps x y = some (ax, ay, pc)) :
    ((0 < rx ∧ x * ps * 10 ^ 18 < (pc + 1) * rx * 10 ^ 18 + ps * rx) ∨
      (0 < ry ∧ y * ps * 10 ^ 18 < (pc + 1) * ry * 10 ^ 18 + ps * ry)) ∧
    2 * 10 ^ 18 * ((ax - 1) * ps - rx * pc) ≤ rx * ps ∧
    2 * 10 ^ 18 * ((ay - 1) * ps - ry * pc) ≤ ry * ps := by
  have e : (10 : Int) ^ 18 = Dec.one := by decide
  rw [e]
  obtain ⟨ratio, hr, hr0, hr1, hr2⟩ := depositRatio_facts hrx hry hx hy hpos
  have hpce : Dec.truncateInt (Dec.mulTruncate (Dec.ofInt ps) ratio) = ps * ratio / Dec.one := by
    have h1 : 0 ≤ ps * ratio := Int.mul_nonneg (le_of_lt hps) hr0
    have h2 : Dec.ofInt ps * ratio = (ps * ratio) * Dec.one := by unfold Dec.ofInt; ring
    rw [mulTrunc_nn (by rw [h2]; exact Int.mul_nonneg h1 (le_of_lt Dec.one_pos')), h2,
      Int.mul_ediv_cancel _ (ne_of_gt Dec.one_pos'), trunc_nn h1]
  have f0 : 0 ≤ ps * ratio / Dec.one := Int.ediv_nonneg (Int.mul_nonneg (le_of_lt hps) hr0) (le_of_lt Dec.one_pos')
  have hops : Dec.ofInt ps ≠ 0 := by unfold Dec.ofInt; have := Int.mul_pos hps Dec.one_pos'; omega
  unfold deposit at h
  simp only [Bool.false_eq_true, if_false] at h
  rw [hr] at h
  simp only [Option.bind_eq_bind, Option.bind_some, hpce] at h
  unfold quo? at h
  rw [if_neg hops, quo_ofInt f0 hps] at h
  simp only [Option.bind_some, Option.pure_def, Option.some.injEq, Prod.mk.injEq] at h
  obtain ⟨rfl, rfl, rfl⟩ := h
  have up : ∀ r, 0 ≤ r → 2 * Dec.one * ((Dec.truncateInt (Dec.ceil (Dec.mul (Dec.ofInt r)
      (Dec.chopRound (ps * ratio / Dec.one * Dec.one * Dec.one / ps)))) - 1) * ps - r * (ps * ratio / Dec.one)) ≤
      r * ps := by
    intro r hr
    rcases accepted_upper hr hps f0 with k | ⟨rfl, k⟩
    · omega
    · rw [k]
      have : 0 < Dec.one * ps := Int.mul_pos Dec.one_pos' hps
      nlinarith
  refine ⟨?_, up rx hrx, up ry hry⟩
  rcases depositRatio_tight hrx hry hx hy hr with ⟨a, b⟩ | ⟨a, b⟩
  · exact .inl ⟨a, mint_tight a hps b⟩
  · exact .inr ⟨a, mint_tight a hps b⟩

example : deposit false 1000003 777 1000000 123456 98 = some (123456, 96, 123455) ∧
    (123456 : Int) * 1000000 * 10 ^ 18 < (123455 + 1) * 1000003 * 10 ^ 18 + 1000000 * 1000003 := by decide +kernel

/-- C63: when the arithmetic does not overflow, redeeming part of the supply pays at least the proportional share minus
the fee, minus one unit and `10^-18` of the reserve:
`rx * (pc / ps) * (1 - fee) < x + 1 + rx * (1 - fee) * 10^-18`, and likewise for the other coin. -/
theorem C63_withdraw_not_shortchanged (rx ry ps pc fee x y : Int) (hrx : 0 ≤ rx) (hry : 0 ≤ ry)
    (hpc : 0 ≤ pc) (hlt : pc < ps) (hfee1 : fee ≤ Dec.one) (h : withdraw false rx ry ps pc fee = some (x, y)) :
    rx * pc * (Dec.one - fee) * 10 ^ 18 < ps * ((x + 1) * 10 ^ 36 + rx * (Dec.one - fee)) ∧
    ry * pc * (Dec.one - fee) * 10 ^ 18 < ps * ((y + 1) * 10 ^ 36 + ry * (Dec.one - fee)) := by
  rw [withdraw_eq (by omega) (by omega)] at h
  simp only [Option.some.injEq, Prod.mk.injEq] at h
  obtain ⟨rfl, rfl⟩ := h
  have e : (10 : Int) ^ 18 = Dec.one := by decide
  have e2 : (10 : Int) ^ 36 = Dec.one * Dec.one := by decide
  rw [e, e2, ← Int.mul_assoc, ← Int.mul_assoc]
  exact ⟨withdrawOne_lower hrx (by omega) hpc hfee1, withdrawOne_lower hry (by omega) hpc hfee1⟩

example : withdraw false 1000003 777 1000000 123456 3000000000000000 = some (123086, 95) := by decide +kernel

end Verif.Props

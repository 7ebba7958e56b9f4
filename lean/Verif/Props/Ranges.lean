import Verif.Proofs.Ranges
import Verif.Proofs.SaneDemo
/-! # C73: the range of a pool is always a valid one and its price is never negative; C59 from conditions on parameters alone -/
namespace Verif.Props
open Verif Verif.Amm Verif.Dex Verif.Spec

/-- C73: in every reachable state, the range of every ranged pool lies within `10^-15 … 10^20`, is not empty, and its upper end
is above the lower end by at least a thousandth of it, up to half a unit of the 18th decimal in the ratio (the code rounds it). -/
theorem C73_ranges_valid {env : Env} {s : State} (hs : Reachable env s) : ∀ p ∈ s.pools, ∀ lo hi, p.range = some (lo, hi) →
    10 ^ 3 ≤ lo ∧ lo < hi ∧ hi ≤ 10 ^ 38 ∧ (2 * 10 ^ 15 - 1) * lo ≤ 2 * 10 ^ 18 * (hi - lo) := by
  intro p hp lo hi e
  obtain ⟨ip, hv⟩ := reachable_ranges hs p hp lo hi e
  unfold validateRangedPoolParams minPoolPrice maxPoolPrice at hv
  split at hv; · cases hv
  split at hv; · cases hv
  split at hv; · cases hv
  split at hv; · cases hv
  split at hv; · cases hv
  split at hv; · cases hv
  rename_i h1 h2 h3 h4 h5 h6
  have h0 : (1000 : Int) ≤ lo := by simpa using h2
  refine ⟨by simpa using h0, by simpa using h5, by simpa using h4, ?_⟩
  have h7 : lo < hi := by simpa using h5
  have h8 : (1000000000000000 : Int) ≤ Dec.quo (hi - lo) lo := by
    have := h6; unfold minRangedPoolPriceGapRatio at this; omega
  have hn : 0 ≤ (hi - lo) * Dec.one * Dec.one := by
    have h9 := Dec.one_pos'
    exact Int.mul_nonneg (Int.mul_nonneg (by omega) h9.le) h9.le
  unfold Dec.quo at h8
  rw [Int.tdiv_eq_ediv_of_nonneg hn] at h8
  have hb := (Dec.chop_bounds (Int.ediv_nonneg hn (show 0 ≤ lo by omega))).2
  have hd := Int.mul_ediv_self_le (x := (hi - lo) * Dec.one * Dec.one) (k := lo) (by omega)
  have ho : Dec.one = 1000000000000000000 := rfl
  rw [ho] at hb hd h8
  generalize (hi - lo) * 1000000000000000000 * 1000000000000000000 / lo = q at hb hd h8
  generalize Dec.chopRound q = c at hb h8
  have hq : 2 * 10 ^ 33 - 10 ^ 18 ≤ 2 * q := by omega
  have := Int.mul_le_mul_of_nonneg_left hq (show 0 ≤ lo by omega)
  have e1 : lo * (2 * q) = 2 * (lo * q) := by ring
  have e2 : lo * (2 * 10 ^ 33 - 10 ^ 18) = 10 ^ 18 * ((2 * 10 ^ 15 - 1) * lo) := by ring
  omega

/-- C73: in every reachable state, the price of a pool, where it has one, is not negative — whatever the reserves. -/
theorem C73_prices_nonneg {env : Env} (hsq : env.sqrt = approxSqrt) {s : State} (hs : Reachable env s) : PricesNonneg env s :=
  prices_nonneg hsq hs

/-- Both: a basic and a ranged pool with prices. -/
example : ∃ s, Reachable Demo.env s ∧ s.pools.length = 2 ∧ s.pools.map (fun p => p.range) = [none, some (900000000000000000, 1100000000000000000)] ∧
    s.pools.map (fun p => (ammPool Demo.env p (s.bank.bal (.poolReserve p.id) (.native 1)) (s.bank.bal (.poolReserve p.id) (.native 0))
      (s.bank.supply (.pool p.id))).bind (·.price)) = [some 1000000000000000000, some 999999986582790589] := by
  obtain ⟨s, h1, h3⟩ := Demo.reach (Demo.placed ++ [.createRangedPool ⟨1, 1, [⟨.native 0, 2000000⟩, ⟨.native 1, 2000000⟩], 900000000000000000, 1100000000000000000, 1000000000000000000⟩])
    (fun s => s.pools.length = 2 ∧ s.pools.map (fun p => p.range) = [none, some (900000000000000000, 1100000000000000000)] ∧
    s.pools.map (fun p => (ammPool Demo.env p (s.bank.bal (.poolReserve p.id) (.native 1)) (s.bank.bal (.poolReserve p.id) (.native 0))
      (s.bank.supply (.pool p.id))).bind (·.price)) = [some 1000000000000000000, some 999999986582790589]) (by decide +kernel)
  exact ⟨s, h1, h3⟩

/-- C73: the translations themselves may be negative, for a valid range: with these reserves both are, so `x + transX` is less
than the reserve `x`.  (The price is positive all the same.) -/
theorem C73_negative_translation : validateRangedPoolParams 1750 1752 1751 = true ∧
    ∃ tX tY, deriveTranslation approxSqrt 29155562172898779070464 1127294 1750 1752 = some (tX, tY) ∧ tX < 0 ∧ tY < 0 ∧
      0 < Dec.quo (Dec.ofInt 29155562172898779070464 + tX) (Dec.ofInt 1127294 + tY) := by
  refine ⟨by decide +kernel, ?_⟩
  have h : (deriveTranslation approxSqrt 29155562172898779070464 1127294 1750 1752).any (fun t => decide (t.1 < 0 ∧ t.2 < 0 ∧
    0 < Dec.quo (Dec.ofInt 29155562172898779070464 + t.1) (Dec.ofInt 1127294 + t.2))) = true := by decide +kernel
  rw [Option.any_eq_true] at h
  obtain ⟨⟨tX, tY⟩, h1, h2⟩ := h
  exact ⟨tX, tY, h1, by simpa using h2⟩

/-- C59: a chain whose parameters were always sane, with a dust collector that is not the reserve account of a pool, is a sane
chain: no condition on the pools is needed. -/
theorem C59_params_suffice {env : Env} (hsq : env.sqrt = approxSqrt) {s : State}
    (hs : ReachableWith env (fun p => SaneParams p ∧ ∀ id, p.dustCollector ≠ .poolReserve id) s) : SaneChain env s ∧ SaneState env s := by
  obtain ⟨s0, ops, hg, hp, hops, h⟩ := hs
  refine ⟨sane_run hsq ⟨s0, [], hg, rfl⟩ (.genesis hg) hp hops h, ?_⟩
  have h1 := params_run (genesis_wf hg) hp hops h
  exact ⟨h1.1, h1.2, prices_nonneg hsq ⟨s0, ops, hg, h⟩⟩

/-- A history with sane parameters and two pools, after a batch that traded. -/
example : ∃ s, ReachableWith Demo.env (fun p => SaneParams p ∧ ∀ id, p.dustCollector ≠ .poolReserve id) s ∧
    s.orders.map (fun o => o.received) = [2000, 29979] := by
  have h : (run Demo.env (Demo.placed ++ [.createRangedPool ⟨1, 1, [⟨.native 0, 2000000⟩, ⟨.native 1, 2000000⟩], 900000000000000000, 1100000000000000000, 1000000000000000000⟩,
      .endBlock]) Demo.s0).any (fun s => decide (s.orders.map (fun o => o.received) = [2000, 29979])) = true := by decide +kernel
  rw [Option.any_eq_true] at h
  obtain ⟨s, h1, h2⟩ := h
  refine ⟨s, ⟨Demo.s0, _, Demo.genesis, ⟨⟨by decide +kernel, by decide +kernel⟩, fun id e => by cases e⟩, ?_, h1⟩, by simpa using h2⟩
  intro p hp
  simp [Demo.placed] at hp

end Verif.Props

import Verif.Proofs.RangedRoot
import Verif.Props.Accept
import Mathlib.Analysis.Real.Sqrt
/-! # Square roots and the creation of ranged pools (C56, C72) -/
namespace Verif.Props
open Verif Verif.Amm Verif.Dex Verif.Spec

set_option exponentiation.threshold 400

/-- C72: the square root of every non-negative number that can be stored (315 bits, 18 decimals) is computed with an error below one
unit of the last decimal. -/
theorem C72_root_exact (d : Int) (h0 : 0 ≤ d) (h1 : d < 2 ^ 315) :
    |(approxSqrt d : ℝ) / 10 ^ 18 - √((d : ℝ) / 10 ^ 18)| < 1 / 10 ^ 18 := by
  rcases eq_or_lt_of_le h0 with rfl | hd
  · rw [show approxSqrt 0 = 0 by decide]
    simp
  obtain ⟨hr, hlo, hhi⟩ := approxSqrt_close h0 h1
  obtain ⟨hlo, hr1⟩ := hlo (by omega)
  generalize approxSqrt d = r at *
  have e : (Dec.one : ℝ) = 10 ^ 18 := by unfold Dec.one; norm_num
  have lo : ((r : ℝ) - 1) * (r - 1) < d * 10 ^ 18 := by rw [← e]; exact_mod_cast hlo
  have hi : (d : ℝ) * 10 ^ 18 < (r + 1) * (r + 1) := by rw [← e]; exact_mod_cast hhi
  have r1 : (1 : ℝ) ≤ r := by exact_mod_cast hr1
  have a : ((r : ℝ) - 1) / 10 ^ 18 < √((d : ℝ) / 10 ^ 18) := by
    rw [Real.lt_sqrt (div_nonneg (by linarith) (by positivity)), div_pow, div_lt_div_iff₀ (by positivity) (by positivity)]
    nlinarith
  have b : √((d : ℝ) / 10 ^ 18) < ((r : ℝ) + 1) / 10 ^ 18 := by
    rw [Real.sqrt_lt' (by positivity)]
    rw [div_pow, div_lt_div_iff₀ (by positivity) (by positivity)]
    nlinarith
  rw [abs_lt]
  constructor
  · have : ((r : ℝ) + 1) / 10 ^ 18 = r / 10 ^ 18 + 1 / 10 ^ 18 := by ring
    linarith
  · have : ((r : ℝ) - 1) / 10 ^ 18 = r / 10 ^ 18 - 1 / 10 ^ 18 := by ring
    linarith

/-- C72: on the numbers up to `10^20` (all pool prices) the computed root never decreases. -/
theorem C72_root_monotone (a b : Int) (h0 : 0 ≤ a) (h : a ≤ b) (h1 : b ≤ 10 ^ 38) : approxSqrt a ≤ approxSqrt b :=
  approxSqrt_mono h0 h h1

/-- The root of two, rounded up in the last decimal, and two prices that differ in the last decimal and have the same root. -/
example : approxSqrt (2 * 10 ^ 18) = 1414213562373095049 ∧ approxSqrt (2 * 10 ^ 18 + 1) = approxSqrt (2 * 10 ^ 18) := by
  decide +kernel

/-- C56: creating a ranged pool accepts at most what was offered of each coin. -/
theorem C56_ranged_accept_at_most_offered (x y minPrice maxPrice initialPrice : Int) (hx : 0 ≤ x) (hy : 0 ≤ y) (p : Pool)
    (h : createRangedPool approxSqrt x y minPrice maxPrice initialPrice = .ok p) :
    0 ≤ p.rx ∧ p.rx ≤ x ∧ 0 ≤ p.ry ∧ p.ry ≤ y := createRanged_reserves hx hy h

example : ∃ p, createRangedPool approxSqrt 1000000 700000 500000000000000000 2000000000000000000 Dec.one = .ok p ∧ p.rx = 700000 ∧
    p.ry = 700000 := ⟨_, rfl, by decide +kernel⟩

/-- C56: the creator of a ranged pool is never charged more than the coins of the message and the creation fee. -/
theorem C56_creator_pays_at_most {env : Env} {s s' : State} (hs : Reachable env s) (he : env.sqrt = approxSqrt)
    {m : MsgCreateRangedPool} (hv : m.validateBasic = true) (h : createRangedPoolMsg env m s = some s') (d : Denom) :
    s.bank.bal (.user m.creator) d - amountOf m.coins d - amountOf s.params.poolCreationFee d ≤ s'.bank.bal (.user m.creator) d := by
  obtain ⟨q, hq, _, hc, ap, minted, e1, _, e2, _⟩ := C57_create_ranged_pool hs hv h
  obtain ⟨_, hg, _, _⟩ := (C50_create_ranged_pool m).1 hv
  have hnn : ∀ d, 0 ≤ amountOf m.coins d := fun d => amountOf_nonneg (fun c hc => (hg.1 c hc).le) d
  rw [he] at e1
  obtain ⟨r1, r2, r3, r4⟩ := C56_ranged_accept_at_most_offered _ _ _ _ _ (hnn _) (hnn _) ap e1
  have hm := e2.mintedOk.1
  have hp := hs.validParams
  unfold Params.validate at hp
  simp only [Bool.and_eq_true, decide_eq_true_eq] at hp
  have hfee := amountOf_nonneg (fun c hc => (((goodCoins_iff _).1 hp.1.1.1.1.1.2).1 c hc).le) d
  have hne := hs.wf.pairNe _ hq
  have ha : amountOf [⟨q.quote, ap.rx⟩, ⟨q.base, ap.ry⟩] d ≤ amountOf m.coins d := by
    have := hnn d
    unfold amountOf at *
    simp only [List.map_cons, List.map_nil, List.sum_cons, List.sum_nil]
    by_cases h1 : q.quote = d
    · subst h1
      rw [if_pos rfl, if_neg hne.1]
      omega
    · by_cases h2 : q.base = d
      · subst h2
        rw [if_neg h1, if_pos rfl]
        omega
      · rw [if_neg h1, if_neg h2]; omega
  rw [e2.bank]
  unfold transferEffect
  have h1 : (if Addr.user m.creator = Addr.poolReserve (s.lastPoolId + 1) then
      amountOf [⟨q.quote, ap.rx⟩, ⟨q.base, ap.ry⟩] d else 0) = 0 := if_neg (by simp)
  have h2 : 0 ≤ (if Addr.user m.creator = s.params.feeCollector then amountOf s.params.poolCreationFee d else 0) := by
    split
    · exact hfee
    · exact le_refl _
  have h3 : 0 ≤ (if Addr.user m.creator = Addr.user m.creator ∧ d = Denom.pool (s.lastPoolId + 1) then minted else 0) := by
    split
    · exact hm.le
    · exact le_refl _
  simp only [h1, if_true]
  omega

/-- Satisfiable: two million of each coin are offered and the pool takes all of the base coin and 1386986 of the quote coin. -/
example : ∃ s, Reachable Demo.env s ∧ Demo.env.sqrt = approxSqrt ∧
    ((createRangedPoolMsg Demo.env ⟨1, 1, [⟨.native 0, 2000000⟩, ⟨.native 1, 2000000⟩], 500000000000000000, 3000000000000000000,
      1000000000000000000⟩ s).map fun s' => (s.bank.bal (.user 1) (.native 0) - s'.bank.bal (.user 1) (.native 0),
        s.bank.bal (.user 1) (.native 1) - s'.bank.bal (.user 1) (.native 1))) = some (2000000, 1386986) := by
  obtain ⟨s, h1, h2⟩ := Demo.reach [.createPair ⟨1, .native 0, .native 1⟩] (fun s =>
    ((createRangedPoolMsg Demo.env ⟨1, 1, [⟨.native 0, 2000000⟩, ⟨.native 1, 2000000⟩], 500000000000000000, 3000000000000000000,
      1000000000000000000⟩ s).map fun s' => (s.bank.bal (.user 1) (.native 0) - s'.bank.bal (.user 1) (.native 0),
        s.bank.bal (.user 1) (.native 1) - s'.bank.bal (.user 1) (.native 1))) = some (2000000, 1386986)) (by decide +kernel)
  exact ⟨s, h1, rfl, h2⟩

end Verif.Props

import Verif.Proofs.RangedSign
import Verif.Proofs.Trading
/-! # The ranges of stored pools; prices are never negative -/
namespace Verif.Dex
open Verif Verif.Amm Verif.Spec

variable {s s' : State}

/-- The range of every stored pool was validated when the pool was created. -/
def RangesOk (s : State) : Prop := ∀ p ∈ s.pools, ∀ lo hi, p.range = some (lo, hi) → ∃ ip, validateRangedPoolParams lo hi ip = true

/-- A step without a new pool keeps the ranges. -/
theorem ranges_old (hw : WF s) (hw' : WF s') (he : Evolves s s') (hid : s'.lastPoolId = s.lastPoolId) (hr : RangesOk s) : RangesOk s' := by
  intro p hp lo hi e
  obtain ⟨a, b, _⟩ := hw'.poolIds p hp
  obtain ⟨q, hq, hqi⟩ := hw.poolAll p.id a (hid ▸ b)
  obtain ⟨q', hq', e1, _, _, e4, _⟩ := he.pools q hq
  have : q' = p := hw'.poolsS.inj hq' hp (PoolRec.key_iff.2 (e1.trans hqi))
  subst this
  exact hr q hq lo hi (e4 ▸ e)

theorem ranged_valid {env : Env} {m : MsgCreateRangedPool} (h : createRangedPoolMsg env m s = some s') :
    validateRangedPoolParams m.minPrice m.maxPrice m.initialPrice = true := by
  unfold createRangedPoolMsg at h
  split at h
  · cases h
  split at h
  · cases h
  · cases h
  rename_i ap hap
  unfold createRangedPool at hap
  split at hap
  · cases hap
  split at hap
  · cases hap
  rename_i hv
  simpa using hv

theorem ranges_created {pid creator : Nat} {range : Option (Int × Int)} {coins : Coins} {minted : Int} (hr : RangesOk s)
    (hv : ∀ lo hi, range = some (lo, hi) → ∃ ip, validateRangedPoolParams lo hi ip = true)
    (h : PoolCreated pid creator range coins minted s s') : RangesOk s' := by
  intro p hp lo hi e
  rcases (h.pools p).1 hp with h1 | rfl
  · exact hr p h1 lo hi e
  · exact hv lo hi e

theorem endBlock_lastPool (hw : WF s) {env : Env} (h : endBlock env s = some s') : s'.lastPoolId = s.lastPoolId := by
  unfold endBlock at h
  split at h
  · cases h
  split at h
  · exact (executeRequests_spec hw h).lastPoolId
  · cases h; rfl

theorem ranges_step (hw : WF s) {env : Env} {op : Op} (hr : RangesOk s) (h : step env op s = some s') : RangesOk s' := by
  have hw' := step_wf hw h
  have he : Evolves s s' := run_evolves (env := env) (ops := [op]) hw (by simp [Dex.run, h])
  by_cases h1 : ∃ a b, op = .beginBlock a b
  · obtain ⟨a, b, rfl⟩ := h1
    cases h
    exact hr
  by_cases h2 : op = .endBlock
  · subst h2
    exact ranges_old hw hw' he (endBlock_lastPool hw h) hr
  have hE := step_effect hw (by push Not at h1; exact h1) h2 h
  cases hE with
  | same op e => subst e; exact hr
  | pair m b hb e => subst e; exact hr
  | pool m pair coins minted hc => exact ranges_created hr (fun _ _ e => by cases e) hc
  | ranged m pair coins minted hc =>
    refine ranges_created hr (fun lo hi e => ?_) hc
    cases e
    have h' := h
    simp only [step, Option.some.injEq] at h'
    rcases tx_cases (valid := m.validateBasic) (handler := createRangedPoolMsg env m) (s := s) with e | ⟨hv, e⟩
    · have : s' = s := by rw [← h', e]
      subst this
      have := hc.id
      omega
    · exact ⟨_, ranged_valid e⟩
  | deposit m p r hd => exact ranges_old hw hw' he hd.rest.2.2.1 hr
  | withdraw m p r hd => exact ranges_old hw hw' he hd.rest.2.2.1 hr
  | order op hop p o ho _ => exact ranges_old hw hw' he ho.rest.lastPoolId hr
  | cancel op hop hf _ _ _ => exact ranges_old hw hw' he hf.lastPoolId hr
  | transfer src dst cs b hb e => subst e; exact hr
  | params p hv e => subst e; exact hr

theorem ranges_run {env : Env} : ∀ {ops : List Op} {s s' : State}, WF s → RangesOk s → run env ops s = some s' → RangesOk s'
  | [], _, _, _, hr, h => by cases h; exact hr
  | op :: ops, s, s', hw, hr, h => by
    simp only [run, Option.bind_eq_some_iff] at h
    obtain ⟨t, h1, h2⟩ := h
    exact ranges_run (step_wf hw h1) (ranges_step hw hr h1) h2

theorem reachable_ranges {env : Env} (hs : Reachable env s) : RangesOk s := by
  obtain ⟨s0, ops, hg, h⟩ := hs
  refine ranges_run (genesis_wf hg) ?_ h
  intro p hp
  rw [hg.pools] at hp
  cases hp

/-- The price of a pool record is never negative. -/
theorem ammPool_price {env : Env} (hsq : env.sqrt = approxSqrt) {pool : PoolRec} {rx ry ps : Int} (hx : 0 ≤ rx) (hy : 0 ≤ ry)
    (hv : ∀ lo hi, pool.range = some (lo, hi) → ∃ ip, validateRangedPoolParams lo hi ip = true) {ap : Pool} {pp : Int}
    (h : ammPool env pool rx ry ps = some ap) (hp : ap.price = some pp) : 0 ≤ pp := by
  unfold ammPool at h
  cases hr : pool.range with
  | none =>
    rw [hr] at h
    cases h
    exact price_nonneg_basic hx hy rfl hp
  | some r =>
    obtain ⟨lo, hi⟩ := r
    rw [hr] at h
    obtain ⟨ip, hip⟩ := hv lo hi hr
    obtain ⟨v1, v2, v3, v4⟩ := validateRanged_true hip
    simp only [newRangedPool, hsq] at h
    cases hd : deriveTranslation approxSqrt rx ry lo hi with
    | none => rw [hd] at h; cases h
    | some t =>
      obtain ⟨tX, tY⟩ := t
      rw [hd] at h
      cases h
      unfold Pool.price at hp
      simp only at hp
      split at hp
      · cases hp
      · unfold quo? at hp
        split at hp
        · cases hp
        · cases hp
          exact derive_price hx hy v1 (by omega) v4 hd

theorem prices_nonneg {env : Env} (hsq : env.sqrt = approxSqrt) (hs : Reachable env s) : PricesNonneg env s := by
  intro pool hp pair _ _ ap pp h1 h2
  have hw := hs.wf
  exact ammPool_price hsq (hw.bankNN _ _) (hw.bankNN _ _) (reachable_ranges hs pool hp) h1 h2

theorem params_run {env : Env} {P : Params → Prop} : ∀ {ops : List Op} {s s' : State}, WF s → P s.params →
    (∀ p, Op.setParams p ∈ ops → P p) → run env ops s = some s' → P s'.params
  | [], _, _, _, hp, _, h => by cases h; exact hp
  | op :: ops, s, s', hw, hp, hops, h => by
    simp only [run, Option.bind_eq_some_iff] at h
    obtain ⟨t, h1, h2⟩ := h
    have hops' : ∀ p, Op.setParams p ∈ ops → P p := fun p h => hops p (by simp [h])
    rcases step_cases hw h1 with h | ⟨p, rfl, _, rfl⟩ | ⟨a, b, _, rfl⟩
    · exact params_run (step_wf hw h1) (by rw [reach_params h]; exact hp) hops' h2
    · exact params_run (step_wf hw h1) (hops p (by simp)) hops' h2
    · exact params_run (step_wf hw h1) hp hops' h2

theorem sane_run {env : Env} (hsq : env.sqrt = approxSqrt) :
    ∀ {ops : List Op} {s s' : State}, Reachable env s → SaneChain env s →
    (SaneParams s.params ∧ ∀ id, s.params.dustCollector ≠ .poolReserve id) →
    (∀ p, Op.setParams p ∈ ops → SaneParams p ∧ ∀ id, p.dustCollector ≠ .poolReserve id) → run env ops s = some s' → SaneChain env s'
  | [], _, _, _, hc, _, _, h => by cases h; exact hc
  | op :: ops, s, s', hs, hc, hp, hops, h => by
    simp only [run, Option.bind_eq_some_iff] at h
    obtain ⟨t, h1, h2⟩ := h
    have hw := hs.wf
    have hrun : run env [op] s = some t := by simp [Dex.run, h1]
    refine sane_run hsq (hs.run (ops := [op]) hrun) (hc.step op (fun _ => ⟨hp.1, hp.2, prices_nonneg hsq hs⟩) h1) ?_
      (fun p h => hops p (by simp [h])) h2
    exact params_run (P := fun p => SaneParams p ∧ ∀ id, p.dustCollector ≠ .poolReserve id) (ops := [op]) hw hp
      (fun p h => hops p (by simp at h; simp [h])) hrun

end Verif.Dex

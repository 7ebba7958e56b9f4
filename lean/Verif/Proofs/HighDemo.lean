import Verif.Proofs.SaneDemo
import Verif.Spec.Halt
import Verif.Props.Pool
/-! # A computable check that no price of a state is below one, for examples -/
namespace Verif.Dex
open Verif Verif.Amm Verif.Spec

/-- Check of a pool. -/
def fineCheck (env : Env) (s : State) (pair : Pair) (pool : PoolRec) : Bool :=
  match ammPool env pool (s.bank.bal (.poolReserve pool.id) pair.quote) (s.bank.bal (.poolReserve pool.id) pair.base)
      (s.bank.supply (.pool pool.id)) with
  | none => false
  | some ap => ap.isDepleted || match ap.price with
    | none => false
    | some pp => decide (10 ^ 18 ≤ pp)

/-- Check of a state. -/
def highCheck (env : Env) (s : State) : Bool :=
  (s.pairs.all fun p => match p.lastPrice with | none => true | some lp => decide (10 ^ 18 ≤ lp)) &&
  (s.orders.all fun o => decide (Unfinished o → o.dir = .sell → 10 ^ 18 ≤ o.price)) &&
  (s.pairs.all fun pair => s.pools.all fun pool => pool.pairId != pair.id || pool.disabled || fineCheck env s pair pool) &&
  (match s.params.dustCollector with | .pairEscrow _ => false | _ => true)

theorem highCheck_sound {s : State} (h : highCheck Demo.env s = true) : HighPrices Demo.env s := by
  unfold highCheck at h
  simp only [Bool.and_eq_true] at h
  obtain ⟨⟨⟨h1, h2⟩, h3⟩, h4⟩ := h
  refine ⟨fun d hd => approxSqrt_nonneg d hd, ?_, ?_, ?_, ?_⟩
  · intro p hp lp e
    have := List.all_eq_true.1 h1 p hp
    simpa [e] using this
  · intro o ho
    have := List.all_eq_true.1 h2 o ho
    exact of_decide_eq_true this
  · intro pair hp pool hq e hd
    have := List.all_eq_true.1 (List.all_eq_true.1 h3 pair hp) pool hq
    simp only [e, hd, bne_self_eq_false, Bool.or_false, Bool.false_or] at this
    unfold fineCheck at this
    unfold PoolFine
    split at this
    · cases this
    · rename_i ap hap
      refine ⟨ap, hap, fun hdep => ?_⟩
      rw [hdep, Bool.false_or] at this
      split at this
      · cases this
      · rename_i pp hpp
        exact ⟨pp, hpp, of_decide_eq_true this⟩
  · intro id e
    rw [e] at h4
    cases h4

/-- A history, checked before every end of block. -/
def runHigh : List Op → State → Option State
  | [], s => some s
  | .endBlock :: ops, s => if saneCheck Demo.env s && highCheck Demo.env s then (endBlock Demo.env s).bind (runHigh ops) else none
  | op :: ops, s => (step Demo.env op s).bind (runHigh ops)

theorem runHigh_sound {ops : List Op} : ∀ {s s' : State}, HighChain Demo.env s → runHigh ops s = some s' → HighChain Demo.env s' := by
  induction ops with
  | nil => intro s s' hs h; cases h; exact hs
  | cons op ops ih =>
    intro s s' hs h
    by_cases he : op = .endBlock
    · subst he
      unfold runHigh at h
      split at h
      · rename_i hc
        rw [Bool.and_eq_true] at hc
        obtain ⟨t, e1, e2⟩ := Option.bind_eq_some_iff.1 h
        exact ih (hs.step .endBlock (fun _ => ⟨saneCheck_sound hc.1, highCheck_sound hc.2⟩) e1) e2
      · cases h
    · have : (step Demo.env op s).bind (runHigh ops) = some s' := by
        rw [← h]
        cases op <;> first | rfl | exact absurd rfl he
      obtain ⟨t, e1, e2⟩ := Option.bind_eq_some_iff.1 this
      exact ih (hs.step op (fun e => absurd e he) e1) e2

/-- A state of the demo chain without prices below one and with a property that can be computed. -/
theorem Demo.highReach (ops : List Op) (P : State → Prop) [DecidablePred P]
    (h : ((runHigh ops Demo.s0).map fun s => decide (P s) && saneCheck Demo.env s && highCheck Demo.env s) = some true) :
    ∃ s, HighChain Demo.env s ∧ SaneState Demo.env s ∧ HighPrices Demo.env s ∧ P s := by
  rw [Option.map_eq_some_iff] at h
  obtain ⟨s, hs, e⟩ := h
  rw [Bool.and_eq_true, Bool.and_eq_true] at e
  exact ⟨s, runHigh_sound (.genesis Demo.genesis) hs, saneCheck_sound e.1.2, highCheck_sound e.2, of_decide_eq_true e.1.1⟩

end Verif.Dex

import Verif.Proofs.Trading
import Verif.Proofs.Example
/-! # A computable check that a history is sane, for examples -/
namespace Verif.Dex
open Verif Verif.Amm Verif.Spec

/-- Check of the prices of the pools. -/
def pricesCheck (env : Env) (s : State) : Bool :=
  s.pools.all fun pool => s.pairs.all fun pair => pair.id != pool.pairId ||
    match ammPool env pool (s.bank.bal (.poolReserve pool.id) pair.quote) (s.bank.bal (.poolReserve pool.id) pair.base)
        (s.bank.supply (.pool pool.id)) with
    | none => true
    | some ap => match ap.price with
      | none => true
      | some pp => decide (0 ≤ pp)

/-- Check of a state. -/
def saneCheck (env : Env) (s : State) : Bool :=
  decide (0 ≤ s.params.maxPriceLimitRatio ∧ s.params.maxPriceLimitRatio < Dec.one ∧ s.params.tickPrec ≤ 18) &&
    (match s.params.dustCollector with | .poolReserve _ => false | _ => true) && pricesCheck env s

theorem saneCheck_sound {env : Env} {s : State} (h : saneCheck env s = true) : SaneState env s := by
  unfold saneCheck at h
  simp only [Bool.and_eq_true, decide_eq_true_eq] at h
  obtain ⟨⟨⟨h1, h2, h3⟩, h4⟩, h5⟩ := h
  refine ⟨⟨⟨h1, h2⟩, h3⟩, ?_, ?_⟩
  · intro id e
    rw [e] at h4
    cases h4
  · intro pool hp pair hq e ap pp e1 e2
    unfold pricesCheck at h5
    have := List.all_eq_true.1 (List.all_eq_true.1 h5 pool hp) pair hq
    simpa [e, e1, e2] using this

/-- A history, checked before every end of block. -/
def runSane (env : Env) : List Op → State → Option State
  | [], s => some s
  | .endBlock :: ops, s => if saneCheck env s then (endBlock env s).bind (runSane env ops) else none
  | op :: ops, s => (step env op s).bind (runSane env ops)

theorem runSane_sound {env : Env} {ops : List Op} : ∀ {s s' : State}, SaneChain env s → runSane env ops s = some s' → SaneChain env s' := by
  induction ops with
  | nil => intro s s' hs h; cases h; exact hs
  | cons op ops ih =>
    intro s s' hs h
    by_cases he : op = .endBlock
    · subst he
      unfold runSane at h
      split at h
      · rename_i hc
        obtain ⟨t, e1, e2⟩ := Option.bind_eq_some_iff.1 h
        exact ih (hs.step .endBlock (fun _ => saneCheck_sound hc) e1) e2
      · cases h
    · have : (step env op s).bind (runSane env ops) = some s' := by
        rw [← h]
        cases op <;> first | rfl | exact absurd rfl he
      obtain ⟨t, e1, e2⟩ := Option.bind_eq_some_iff.1 this
      exact ih (hs.step op (fun e => absurd e he) e1) e2

/-- A sane state of the demo chain with a property that can be computed. -/
theorem Demo.saneReach (ops : List Op) (P : State → Prop) [DecidablePred P]
    (h : ((runSane Demo.env ops Demo.s0).map fun s => decide (P s) && saneCheck Demo.env s) = some true) :
    ∃ s, SaneChain Demo.env s ∧ SaneState Demo.env s ∧ P s := by
  rw [Option.map_eq_some_iff] at h
  obtain ⟨s, hs, e⟩ := h
  rw [Bool.and_eq_true] at e
  exact ⟨s, runSane_sound (.genesis Demo.genesis) hs, saneCheck_sound e.2, of_decide_eq_true e.1⟩

/-- Three users with 10^15 units of the coins 0 and 1 each. -/
def Demo.richBank : Bank where
  bal := fun a d => match a, d with
    | .user n, .native k => if (n = 1 ∨ n = 2 ∨ n = 3) ∧ (k = 0 ∨ k = 1) then 1000000000000000 else 0
    | _, _ => 0
  supply := fun d => match d with
    | .native k => if k = 0 ∨ k = 1 then 3000000000000000 else 0
    | .pool _ => 0

/-- The demo chain with richer users. -/
def Demo.rich : State := { Demo.s0 with bank := Demo.richBank }

theorem Demo.richGenesis : Genesis Demo.rich where
  pairs := rfl
  pools := rfl
  deposits := rfl
  withdraws := rfl
  orders := rfl
  numMM := fun _ _ => rfl
  lastPairId := rfl
  lastPoolId := rfl
  shortfall := fun _ => rfl
  nonneg := by
    intro a d
    show 0 ≤ Demo.richBank.bal a d
    unfold Demo.richBank
    cases a <;> cases d <;> simp only [le_refl]
    split <;> omega
  sum := by
    intro d
    refine ⟨{.user 1, .user 2, .user 3}, ?_, ?_⟩
    · intro a ha
      show Demo.richBank.bal a d = 0
      unfold Demo.richBank
      cases a <;> cases d <;> simp_all
    · show ∑ a ∈ ({.user 1, .user 2, .user 3} : Finset Addr), Demo.richBank.bal a d = Demo.richBank.supply d
      rw [Finset.sum_insert (by decide), Finset.sum_insert (by decide), Finset.sum_singleton]
      unfold Demo.richBank
      cases d with
      | native k => simp; split <;> omega
      | pool k => simp
  noPoolCoin := fun _ => rfl
  params := by decide

/-- A sane state of the rich demo chain with a property that can be computed. -/
theorem Demo.richReach (ops : List Op) (P : State → Prop) [DecidablePred P]
    (h : ((runSane Demo.env ops Demo.rich).map fun s => decide (P s) && saneCheck Demo.env s) = some true) :
    ∃ s, SaneChain Demo.env s ∧ SaneState Demo.env s ∧ P s := by
  rw [Option.map_eq_some_iff] at h
  obtain ⟨s, hs, e⟩ := h
  rw [Bool.and_eq_true] at e
  exact ⟨s, runSane_sound (.genesis Demo.richGenesis) hs, saneCheck_sound e.2, of_decide_eq_true e.1⟩

end Verif.Dex

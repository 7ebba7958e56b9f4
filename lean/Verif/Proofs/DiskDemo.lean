import Verif.Proofs.DiskHistory
import Verif.Proofs.Example
/-! # A concrete spelling and a concrete history on disk -/
namespace Verif.Dex.Demo
open Verif Verif.Dex Verif.Dex.KV Verif.Dex.Keys Verif.Spec Verif.Spec.Keys

/-- One byte for the kind, eight for the number; names with larger numbers are not spelled at all. -/
def spell (kind : UInt8) (n : Nat) : Bytes := if n < 2 ^ 64 then kind :: be64 (u64 n) else []

def enc : Enc where
  denom
    | .native n => spell 1 n
    | .pool n => spell 2 n
  addr
    | .user n => spell 1 n
    | .globalEscrow => spell 2 0
    | .pairEscrow n => spell 3 n
    | .poolReserve n => spell 4 n
    | .dexModule => spell 5 0
    | .other n => spell 6 n

theorem spell_inj {k k' : UInt8} {n n' : Nat} (hn : Name (spell k n)) (h : spell k n = spell k' n') : k = k' ∧ n = n' := by
  unfold spell at *
  by_cases h1 : n < 2 ^ 64
  · rw [if_pos h1] at h
    by_cases h2 : n' < 2 ^ 64
    · rw [if_pos h2] at h
      have h3 := List.cons.inj h
      exact ⟨h3.1, (u64_inj h1 h2).1 (be64_inj.1 h3.2)⟩
    · rw [if_neg h2] at h; cases h
  · rw [if_neg h1] at hn; exact absurd hn.1 (by simp)

theorem spelling : Spelling enc where
  denom := fun d d' hn h => by
    cases d <;> cases d' <;> simp only [enc] at hn h <;> obtain ⟨h1, h2⟩ := spell_inj hn h <;>
      first | (subst h2; rfl) | exact absurd h1 (by decide)
  addr := fun d d' hn h => by
    cases d <;> cases d' <;> simp only [enc] at hn h <;> first | rfl | skip
    all_goals obtain ⟨h1, h2⟩ := spell_inj hn h
    all_goals first | exact absurd h1 (by decide) | (subst h2; rfl)

instance (b : Bytes) : Decidable (Name b) := inferInstanceAs (Decidable (_ ∧ _))

theorem spell_name {k : UInt8} {n : Nat} (h : n < 2 ^ 64) : Name (spell k n) := by
  unfold spell
  rw [if_pos h]
  exact ⟨by simp, by simp [be64_length]⟩

theorem spell_short (k : UInt8) (n : Nat) : (spell k n).length ≤ 9 := by
  unfold spell
  split
  · simp [be64_length]
  · simp

/-- All numbers in the records are below 2^64. -/
def fits (s : State) : Bool :=
  decide (s.lastPairId < 2 ^ 64) && decide (s.lastPoolId < 2 ^ 64) &&
  s.pairs.all (fun p => decide (p.id < 2 ^ 64) && decide (Name (enc.denom p.base)) && decide (Name (enc.denom p.quote))) &&
  s.pools.all (fun p => decide (p.id < 2 ^ 64) && decide (p.pairId < 2 ^ 64)) &&
  s.deposits.all (fun r => decide (r.poolId < 2 ^ 64) && decide (r.id < 2 ^ 64) && decide (r.depositor < 2 ^ 64)) &&
  s.withdraws.all (fun r => decide (r.poolId < 2 ^ 64) && decide (r.id < 2 ^ 64) && decide (r.withdrawer < 2 ^ 64)) &&
  s.orders.all (fun r => decide (r.pairId < 2 ^ 64) && decide (r.id < 2 ^ 64) && decide (r.orderer < 2 ^ 64))

theorem fits_sound {s : State} (h : fits s = true) : Storable enc s := by
  simp only [fits, Bool.and_eq_true, decide_eq_true_eq, List.all_eq_true] at h
  obtain ⟨⟨⟨⟨⟨⟨h1, h2⟩, h3⟩, h4⟩, h5⟩, h6⟩, h7⟩ := h
  exact ⟨h1, h2, fun p hp => ⟨(h3 p hp).1.1, (h3 p hp).1.2, (h3 p hp).2⟩,
    fun p hp => ⟨(h4 p hp).1, (h4 p hp).2, spell_name (h4 p hp).1⟩,
    fun p hp => ⟨(h5 p hp).1.1, (h5 p hp).1.2, spell_name (h5 p hp).2⟩,
    fun p hp => ⟨(h6 p hp).1.1, (h6 p hp).1.2, spell_name (h6 p hp).2⟩,
    fun p hp => ⟨(h7 p hp).1.1, (h7 p hp).1.2, spell_name (h7 p hp).2⟩⟩

/-- Run and check. -/
def runFits : List Op → State → Option State
  | [], s => if fits s then some s else none
  | op :: ops, s => if fits s then (step env op s).bind (runFits ops) else none

theorem runFits_sound : ∀ {ops : List Op} {s s' : State}, runFits ops s = some s' →
    run env ops s = some s' ∧ ∀ k t, run env (ops.take k) s = some t → Storable enc t := by
  intro ops
  induction ops with
  | nil =>
    intro s s' h
    simp only [runFits] at h
    by_cases hf : fits s = true
    · rw [if_pos hf] at h
      cases h
      exact ⟨rfl, fun k t ht => by rw [List.take_nil] at ht; cases ht; exact fits_sound hf⟩
    · rw [if_neg hf] at h; cases h
  | cons op ops ih =>
    intro s s' h
    simp only [runFits] at h
    by_cases hf : fits s = true
    · rw [if_pos hf] at h
      cases e : step env op s with
      | none => rw [e] at h; cases h
      | some t =>
        rw [e] at h
        obtain ⟨h1, h2⟩ := ih h
        refine ⟨by simp only [run]; rw [e]; exact h1, fun k u hu => ?_⟩
        cases k with
        | zero => cases hu; exact fits_sound hf
        | succ k =>
          simp only [List.take_succ_cons, run] at hu
          rw [e] at hu
          exact h2 k u hu
    · rw [if_neg hf] at h; cases h

theorem onDiskFrom {s1 : State} (hg : Genesis s1) (ops : List Op) (P : State → Prop) [DecidablePred P]
    (h : (match runFits ops s1 with | some s => decide (P s) | none => false) = true) :
    ∃ s kv, Written enc s kv ∧ P s := by
  cases e : runFits ops s1 with
  | none => rw [e] at h; cases h
  | some s =>
    rw [e] at h
    obtain ⟨h1, h2⟩ := runFits_sound e
    obtain ⟨kv, hk⟩ := written_run (genesis_wf hg) h1 h2 (.genesis hg)
    exact ⟨s, kv, hk, by simpa using h⟩

theorem onDisk (ops : List Op) (P : State → Prop) [DecidablePred P]
    (h : (match runFits ops s0 with | some s => decide (P s) | none => false) = true) :
    ∃ s kv, Written enc s kv ∧ P s := onDiskFrom genesis ops P h

/-- The same accounts, but denoms of 128 bytes. -/
def longEnc : Enc where
  denom
    | .native n => if n < 2 ^ 64 then spell 1 n ++ List.replicate 119 0 else []
    | .pool n => if n < 2 ^ 64 then spell 2 n ++ List.replicate 119 0 else []
  addr := enc.addr

theorem pad_inj {k k' : UInt8} {n n' : Nat} (hn : Name (if n < 2 ^ 64 then spell k n ++ List.replicate 119 0 else []))
    (h : (if n < 2 ^ 64 then spell k n ++ List.replicate 119 0 else []) = if n' < 2 ^ 64 then spell k' n' ++ List.replicate 119 0 else []) :
    k = k' ∧ n = n' := by
  by_cases h1 : n < 2 ^ 64
  · rw [if_pos h1] at h
    by_cases h2 : n' < 2 ^ 64
    · rw [if_pos h2] at h
      exact spell_inj (spell_name h1) (List.append_cancel_right h)
    · rw [if_neg h2] at h; simp at h
  · rw [if_neg h1] at hn; exact absurd hn.1 (by simp)

theorem longSpelling : Spelling longEnc where
  denom := fun d d' hn h => by
    cases d <;> cases d' <;> simp only [longEnc] at hn h <;> obtain ⟨h1, h2⟩ := pad_inj hn h <;>
      first | (subst h2; rfl) | exact absurd h1 (by decide)
  addr := spelling.addr

end Verif.Dex.Demo

import Verif.Model.Keys
import Mathlib.Tactic.IntervalCases
import Mathlib.Data.List.Induction
/-! # Lemmas about pool coin denoms -/
namespace Verif.Dex.Keys

/-- A decimal digit. -/
def IsDigit (c : Char) : Prop := '0' ≤ c ∧ c ≤ '9'

theorem isDigit_iff {c : Char} : IsDigit c ↔ 48 ≤ c.toNat ∧ c.toNat ≤ 57 := by
  unfold IsDigit
  simp only [Char.le_def, UInt32.le_iff_toNat_le]
  exact Iff.rfl

theorem digit_ofNat {d : Nat} (h : d < 10) : (Char.ofNat (48 + d)).toNat = 48 + d := by
  interval_cases d <;> rfl

theorem digit_eq {c : Char} (h : IsDigit c) : Char.ofNat (48 + (c.toNat - 48)) = c := by
  rw [isDigit_iff] at h
  rw [show 48 + (c.toNat - 48) = c.toNat by omega]
  exact Char.ofNat_toNat c

theorem decimal_snoc (l : List Char) (c : Char) : decimal (l ++ [c]) = decimal l * 10 + (c.toNat - 48) := by
  unfold decimal; rw [List.foldl_append]; rfl

theorem decimal_digits (n : Nat) : decimal (digits n) = n := by
  induction n using Nat.strongRecOn with
  | ind n ih =>
    rw [digits]
    split
    · rename_i h
      show 0 * 10 + ((Char.ofNat (48 + n)).toNat - 48) = n
      rw [digit_ofNat h]; omega
    · rename_i h
      rw [decimal_snoc, ih _ (by omega), digit_ofNat (Nat.mod_lt _ (by decide))]; omega

theorem digits_isDigit (n : Nat) : ∀ c ∈ digits n, IsDigit c := by
  induction n using Nat.strongRecOn with
  | ind n ih =>
    rw [digits]
    split
    · rename_i h
      intro c hc
      simp only [List.mem_singleton] at hc
      subst hc; rw [isDigit_iff, digit_ofNat h]; omega
    · intro c hc
      simp only [List.mem_append, List.mem_singleton] at hc
      rcases hc with hc | rfl
      · exact ih _ (by omega) c hc
      · rw [isDigit_iff, digit_ofNat (Nat.mod_lt _ (by decide))]
        have := Nat.mod_lt n (show 0 < 10 by decide); omega

theorem digits_head {n : Nat} (hn : 0 < n) : ∃ c cs, digits n = c :: cs ∧ '1' ≤ c ∧ c ≤ '9' := by
  induction n using Nat.strongRecOn with
  | ind n ih =>
    rw [digits]
    split
    · rename_i h
      refine ⟨_, [], rfl, ?_⟩
      interval_cases n <;> decide
    · obtain ⟨c, cs, h, h'⟩ := ih (n / 10) (by omega) (by omega)
      exact ⟨c, cs ++ [Char.ofNat (48 + n % 10)], by rw [h]; rfl, h'⟩

theorem decimal_pos (c : Char) (cs : List Char) (h : '1' ≤ c) : 0 < decimal (c :: cs) := by
  induction cs using List.reverseRecOn with
  | nil =>
    show 0 < 0 * 10 + (c.toNat - 48)
    have : 49 ≤ c.toNat := by
      have := h; rw [Char.le_def, UInt32.le_iff_toNat_le] at this; exact this
    omega
  | append_singleton cs d ih => rw [← List.cons_append, decimal_snoc]; omega

theorem digits_decimal {c : Char} {cs : List Char} (h1 : '1' ≤ c) (h2 : c ≤ '9') (hcs : ∀ d ∈ cs, IsDigit d) :
    digits (decimal (c :: cs)) = c :: cs := by
  have hc : IsDigit c := by
    have h1 := h1; rw [Char.le_def, UInt32.le_iff_toNat_le] at h1
    have h1 : 49 ≤ c.toNat := h1
    refine isDigit_iff.2 ⟨by omega, ?_⟩
    have h2 := h2; rw [Char.le_def, UInt32.le_iff_toNat_le] at h2; exact h2
  induction cs using List.reverseRecOn with
  | nil =>
    have e : decimal [c] = c.toNat - 48 := by show 0 * 10 + (c.toNat - 48) = _; omega
    rw [e, digits, if_pos (by have := isDigit_iff.1 hc; omega), digit_eq hc]
  | append_singleton cs d ih =>
    have hd := hcs d (by simp)
    have hp := decimal_pos c cs h1
    have hb := isDigit_iff.1 hd
    rw [← List.cons_append, decimal_snoc, digits, if_neg (by omega)]
    rw [show (decimal (c :: cs) * 10 + (d.toNat - 48)) / 10 = decimal (c :: cs) by omega, ih (fun x hx => hcs x (by simp [hx]))]
    rw [show (decimal (c :: cs) * 10 + (d.toNat - 48)) % 10 = d.toNat - 48 by omega, digit_eq hd]

end Verif.Dex.Keys

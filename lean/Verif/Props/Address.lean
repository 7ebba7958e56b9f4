import Verif.Model.Address
import Verif.Proofs.KeysDenom
/-!
# C88 addresses of the module's accounts

The hash function is arbitrary; where two addresses could only agree by a collision, the two colliding byte strings are named.
-/
namespace Verif.Props
open Verif.Dex Verif.Dex.Keys Verif.Dex.Address

private theorem ascii_digits_inj : ∀ {cs ds : List Char}, (∀ c ∈ cs, IsDigit c) → (∀ c ∈ ds, IsDigit c) → ascii cs = ascii ds → cs = ds
  | [], [], _, _, _ => rfl
  | [], _ :: _, _, _, h => by cases h
  | _ :: _, [], _, _, h => by cases h
  | c :: cs, d :: ds, hc, hd, h => by
    have h1 := (isDigit_iff.1 (hc c (by simp)))
    have h2 := (isDigit_iff.1 (hd d (by simp)))
    simp only [ascii, List.map_cons, List.cons.injEq] at h
    have h3 := congrArg UInt8.toNat h.1
    simp only [UInt8.toNat_ofNat'] at h3
    have h4 : c.toNat = d.toNat := by omega
    rw [ascii_digits_inj (fun x hx => hc x (by simp [hx])) (fun x hx => hd x (by simp [hx])) h.2, Char.toNat_inj.1 h4]

private theorem numbered_inj {pre : String} {a b : UInt64} (h : numbered pre a = numbered pre b) : a = b := by
  have h := ascii_digits_inj (digits_isDigit _) (digits_isDigit _) (List.append_cancel_left h)
  have h := congrArg decimal h
  rw [decimal_digits, decimal_digits] at h
  exact UInt64.toNat_inj.1 h

private theorem name_inj {a b : Account} (h : name a = name b) : a = b := by
  have ha : ∀ i, ∃ r, numbered "PairEscrowAddress" i = 0x50 :: 0x61 :: r := fun i => ⟨_, rfl⟩
  have hb : ∀ i, ∃ r, numbered "PoolReserveAddress" i = 0x50 :: 0x6f :: r := fun i => ⟨_, rfl⟩
  cases a <;> cases b <;> simp only [name] at h
  case pairEscrow.pairEscrow => rw [numbered_inj h]
  case poolReserve.poolReserve => rw [numbered_inj h]
  all_goals first
    | rfl
    | (exfalso; revert h; first
        | decide
        | (rename_i i j; obtain ⟨r, hr⟩ := ha i; obtain ⟨t, ht⟩ := hb j; rw [hr, ht]; simp)
        | (rename_i i j; obtain ⟨r, hr⟩ := hb i; obtain ⟨t, ht⟩ := ha j; rw [hr, ht]; simp)
        | (rename_i i; obtain ⟨r, hr⟩ := ha i; rw [hr]; simp [ascii])
        | (rename_i i; obtain ⟨r, hr⟩ := hb i; rw [hr]; simp [ascii]))

/-- **C88** The byte strings that are hashed are different for different accounts, for all pair and pool ids. -/
theorem C88_texts {hash : Bytes → Bytes} {a b : Account} (h : text hash a = text hash b) : a = b :=
  name_inj (List.append_cancel_left (List.append_cancel_left h))

/-- **C88** The addresses of escrows, reserves and collectors have 32 bytes; the module account has 20. -/
theorem C88_length {hash : Bytes → Bytes} (h32 : ∀ x, (hash x).length = 32) (a : Account) :
    (address hash a).length = if a = .moduleAccount then 20 else 32 := by
  cases a <;> simp [address, deriveAddress, h32]

/-- **C88** Two accounts of the module have the same address only if they are the same account, or the hash function maps the two
different byte strings they are derived from to the same hash. -/
theorem C88_distinct {hash : Bytes → Bytes} (h32 : ∀ x, (hash x).length = 32) {a b : Account}
    (h : address hash a = address hash b) : a = b ∨ (text hash a ≠ text hash b ∧ hash (text hash a) = hash (text hash b)) := by
  by_cases hab : a = b
  · exact .inl hab
  · refine .inr ⟨fun ht => hab (C88_texts ht), ?_⟩
    have hl := congrArg List.length h
    rw [C88_length h32, C88_length h32] at hl
    cases a <;> cases b <;> first | exact h | (simp at hl; done) | exact absurd rfl hab

/-- **C88** No account of an ordinary user, whose address has 20 bytes, is an escrow, a reserve or a default collector. -/
theorem C88_not_user {hash : Bytes → Bytes} (h32 : ∀ x, (hash x).length = 32) {user : Bytes} (hu : user.length = 20) {a : Account}
    (ha : a ≠ .moduleAccount) : address hash a ≠ user := by
  intro h
  have := C88_length h32 a
  rw [h, hu, if_neg ha] at this
  cases this

/-- **C88** The 32-byte type: addresses derived for module names without a zero byte agree only if module and name do, or the two
different hashed byte strings collide. -/
theorem C88_derive {hash : Bytes → Bytes} {m m' n n' : Bytes} (hm : (0 : UInt8) ∉ m) (hm' : (0 : UInt8) ∉ m')
    (h : deriveAddress hash .bytes32 m n = deriveAddress hash .bytes32 m' n') :
    (m = m' ∧ n = n') ∨ (moduleText hash m n ≠ moduleText hash m' n' ∧ hash (moduleText hash m n) = hash (moduleText hash m' n')) := by
  by_cases ht : moduleText hash m n = moduleText hash m' n'
  · left
    have h2 := List.append_cancel_left ht
    clear h ht
    induction m generalizing m' with
    | nil =>
      cases m' with
      | nil => exact ⟨rfl, by simpa using h2⟩
      | cons x xs => simp only [List.nil_append, List.cons_append, List.cons.injEq] at h2; exact absurd (by simp [h2.1]) hm'
    | cons y ys ih =>
      cases m' with
      | nil => simp only [List.nil_append, List.cons_append, List.cons.injEq] at h2; exact absurd (by simp [h2.1]) hm
      | cons x xs =>
        simp only [List.cons_append, List.cons.injEq] at h2
        have := ih (fun hh => hm (by simp [hh])) (m' := xs) (fun hh => hm' (by simp [hh])) h2.2
        exact ⟨by rw [h2.1, this.1], this.2⟩
  · exact .inr ⟨ht, h⟩

/-- **C88** The 20-byte type puts nothing between the module and the name: the end of one module's name can be moved to the other
without changing the address, whatever the hash function; and any other type has the empty address for every name. -/
theorem C88_derive_short (hash : Bytes → Bytes) (m x n : Bytes) (t : Nat) :
    deriveAddress hash .bytes20 (m ++ x) n = deriveAddress hash .bytes20 m (x ++ n) ∧
      deriveAddress hash (.other t) m n = deriveAddress hash (.other t) x n := by
  simp [deriveAddress]

/-- A hash function with 32 bytes, and accounts whose texts are as in the code. -/
example : (∀ x : Bytes, ((x ++ List.replicate 32 0).reverse.take 32).length = 32) ∧
    name (.pairEscrow 12) = ascii "PairEscrowAddress|12".toList ∧ name (.poolReserve 1) = ascii "PoolReserveAddress|1".toList ∧
    text (fun x => x) (.pairEscrow 7) = ascii "moduledex\x00PairEscrowAddress|7".toList := by
  refine ⟨fun x => by simp, by decide +kernel, by decide +kernel, by decide +kernel⟩

/-- The names must not contain a zero byte in `C88_derive`: the module's own does not. -/
example : (0 : UInt8) ∉ Address.moduleName ∧
    deriveAddress (fun x => x) .bytes20 (ascii "de".toList) (ascii "xy".toList) =
      deriveAddress (fun x => x) .bytes20 (ascii "dex".toList) (ascii "y".toList) := by
  refine ⟨by decide +kernel, by decide +kernel⟩

end Verif.Props

import Verif.Spec.Cli
import Verif.Proofs.KeysDenom
/-! Proofs about the command line. -/
namespace Verif.Cli
open Verif Verif.Dex Verif.Amm Verif.Spec

theorem need_sends {α β : Type} {x : Option α} {k : α → Outcome β} {b : β} :
    need x k = .sends b ↔ ∃ a, x = some a ∧ k a = .sends b := by
  cases x <;> simp [need]

theorem exactArgs_sends {β : Type} {n : Nat} {args : List Text} {k : Outcome β} {b : β} :
    exactArgs n args k = .sends b ↔ args.length = n ∧ k = .sends b := by
  unfold exactArgs; split <;> simp_all

theorem maximumArgs_sends {β : Type} {n : Nat} {args : List Text} {k : Outcome β} {b : β} :
    maximumArgs n args k = .sends b ↔ args.length ≤ n ∧ k = .sends b := by
  unfold maximumArgs; split <;> simp_all

theorem arg_zero {β : Type} {t : Text} {ts : List Text} {k : Text → Outcome β} : arg (t :: ts) 0 k = k t := rfl
theorem arg_succ {β : Type} {t : Text} {ts : List Text} {i : Nat} {k : Text → Outcome β} : arg (t :: ts) (i + 1) k = arg ts i k := rfl
theorem arg_nil {β : Type} {i : Nat} {k : Text → Outcome β} : arg [] i k = .panics := by cases i <;> rfl

/-- A command that asks for exactly `n` arguments sees each of them. -/
theorem len0 {l : List Text} : l.length = 0 ↔ l = [] := List.length_eq_zero_iff
theorem len1 {l : List Text} : l.length = 1 ↔ ∃ a, l = [a] := List.length_eq_one_iff
theorem len2 {l : List Text} : l.length = 2 ↔ ∃ a b, l = [a, b] := List.length_eq_two
theorem len5 {l : List Text} : l.length = 5 ↔ ∃ a b c d e, l = [a, b, c, d, e] := by
  constructor
  · intro h
    match l, h with
    | [a, b, c, d, e], _ => exact ⟨a, b, c, d, e, rfl⟩
  · rintro ⟨a, b, c, d, e, rfl⟩; rfl
theorem len6 {l : List Text} : l.length = 6 ↔ ∃ a b c d e f, l = [a, b, c, d, e, f] := by
  constructor
  · intro h
    match l, h with
    | [a, b, c, d, e, f], _ => exact ⟨a, b, c, d, e, f, rfl⟩
  · rintro ⟨a, b, c, d, e, f, rfl⟩; rfl

theorem decimal_ofDigits (t : Text) : Keys.decimal t = Nat.ofDigits 10 (t.reverse.map fun c => c.toNat - '0'.toNat) := by
  induction t using List.reverseRecOn with
  | nil => rfl
  | append_singleton l c ih =>
    rw [Keys.decimal_snoc, List.reverse_append, List.reverse_singleton, List.singleton_append, List.map_cons, Nat.ofDigits_cons, ih]
    have : '0'.toNat = 48 := rfl
    rw [this]; omega

theorem digit_iff (c : Char) : ('0' ≤ c ∧ c ≤ '9') ↔ c.isDigit = true := by
  unfold Char.isDigit
  simp only [Bool.and_eq_true, decide_eq_true_eq]
  rfl

theorem parseUint_iff {t : Text} {n : Nat} : parseUint t = some n ↔ Numeral t n := by
  unfold parseUint Numeral
  rw [← decimal_ofDigits]
  by_cases h1 : t = []
  · simp [h1]
  rw [if_neg h1]
  by_cases h2 : t.all (fun c => decide ('0' ≤ c ∧ c ≤ '9')) = false
  · rw [if_pos h2]
    refine ⟨fun h => by simp at h, ?_⟩
    rintro ⟨-, hd, -⟩
    rw [List.all_eq_false] at h2
    obtain ⟨c, hc, hn⟩ := h2
    exact absurd (by simpa using (digit_iff c).2 (hd c hc)) hn
  rw [if_neg h2]
  have hall : ∀ c ∈ t, c.isDigit = true := by
    intro c hc
    rw [Bool.not_eq_false, List.all_eq_true] at h2
    exact (digit_iff c).1 (by simpa using h2 c hc)
  by_cases h3 : 2 ^ 64 ≤ Keys.decimal t
  · rw [if_pos h3]
    refine ⟨fun h => by simp at h, ?_⟩
    rintro ⟨-, -, e, hl⟩
    omega
  rw [if_neg h3]
  constructor
  · intro h
    have e : Keys.decimal t = n := Option.some.inj h
    exact ⟨h1, hall, e, by omega⟩
  · rintro ⟨-, -, e, -⟩; rw [e]

theorem numeral_digits {n : Nat} (h : n < 2 ^ 64) : Numeral (Keys.digits n) n := by
  rw [← parseUint_iff, parseUint, Keys.decimal_digits]
  have h1 : Keys.digits n ≠ [] := by rw [Keys.digits]; split <;> simp
  have h2 : (Keys.digits n).all (fun c => decide ('0' ≤ c ∧ c ≤ '9')) = true := by
    rw [List.all_eq_true]
    intro c hc
    exact decide_eq_true (Keys.digits_isDigit n c hc)
  rw [if_neg h1, if_neg (by rw [h2]; simp), if_neg (by omega)]

theorem numeral_unique {t : Text} {m n : Nat} (h1 : Numeral t m) (h2 : Numeral t n) : m = n := h1.2.2.1.symm.trans h2.2.2.1

theorem split_ne (sep : Char) (t : Text) : split sep t ≠ [] := by
  cases t with
  | nil => simp [split]
  | cons c cs => rw [split]; split; simp; split <;> simp

theorem split_intercalate (sep : Char) (t : Text) : [sep].intercalate (split sep t) = t := by
  induction t with
  | nil => rfl
  | cons c cs ih =>
    rw [split]
    have hne := split_ne sep cs
    split
    · next h =>
      subst h
      revert ih hne
      cases split c cs with
      | nil => simp
      | cons p ps => intro ih _; rw [List.intercalate_cons_cons, ih]; rfl
    · revert ih hne
      cases split sep cs with
      | nil => simp
      | cons p ps =>
        intro ih _
        cases ps with
        | nil => simp only [List.intercalate_singleton] at ih ⊢; rw [ih]
        | cons q qs => simp only [List.intercalate_cons_cons] at ih ⊢; rw [List.cons_append, List.cons_append, ih]

theorem split_clean {sep : Char} {t : Text} (h : sep ∉ t) : split sep t = [t] := by
  induction t with
  | nil => rfl
  | cons c cs ih =>
    rw [split, if_neg (fun e => h (by simp [e])), ih (fun hm => h (by simp [hm]))]

theorem split_append {sep : Char} {t r : Text} (h : sep ∉ t) : split sep (t ++ sep :: r) = t :: split sep r := by
  induction t with
  | nil => rw [List.nil_append, split, if_pos rfl]
  | cons c cs ih =>
    rw [List.cons_append, split, if_neg (fun e => h (by simp [e])), ih (fun hm => h (by simp [hm]))]

theorem split_of_intercalate {sep : Char} {ts : List Text} (hne : ts ≠ []) (h : ∀ t ∈ ts, sep ∉ t) :
    split sep ([sep].intercalate ts) = ts := by
  induction ts with
  | nil => exact absurd rfl hne
  | cons a as ih =>
    cases as with
    | nil => rw [List.intercalate_singleton, split_clean (h a (by simp))]
    | cons b bs =>
      rw [List.intercalate_cons_cons, List.append_assoc, List.singleton_append, split_append (h a (by simp)),
        ih (by simp) (fun t ht => h t (by simp [ht]))]

theorem parsePairIds_iff {ts : List Text} {ns : List Nat} : parsePairIds ts = some ns ↔ List.Forall₂ Numeral ts ns := by
  induction ts generalizing ns with
  | nil => rw [parsePairIds]; constructor
           · intro h; cases h; exact .nil
           · intro h; cases h; rfl
  | cons t ts ih =>
    rw [parsePairIds]
    constructor
    · intro h
      split at h
      · next p ps e1 e2 => cases h; exact .cons (parseUint_iff.1 e1) (ih.1 e2)
      · exact absurd h (by simp)
    · intro h
      cases h with
      | cons h1 h2 => rw [parseUint_iff.2 h1, ih.2 h2]

theorem numeral_no_comma {t : Text} {n : Nat} (h : Numeral t n) : ',' ∉ t := fun hm => absurd (h.2.1 _ hm) (by decide)

theorem numerals_iff {t : Text} {ns : List Nat} : parsePairIds (split ',' t) = some ns ↔ Numerals t ns := by
  rw [parsePairIds_iff]
  constructor
  · intro h
    exact ⟨split ',' t, split_ne _ _, (split_intercalate _ _).symm, h⟩
  · rintro ⟨ts, hne, rfl, h⟩
    rw [split_of_intercalate hne]
    · exact h
    · clear hne
      intro a ha
      induction h with
      | nil => simp at ha
      | cons h1 _ ih =>
        rcases List.mem_cons.1 ha with rfl | ha
        · exact numeral_no_comma h1
        · exact ih ha

theorem lower_eq (c : Char) : lower c = c.toLower := by
  unfold lower Char.toLower
  have e : ('A' ≤ c ∧ c ≤ 'Z') ↔ (c.val ≥ 'A'.val ∧ c.val ≤ 'Z'.val) := Iff.rfl
  by_cases h : 'A' ≤ c ∧ c ≤ 'Z'
  · rw [if_pos h, dif_pos (e.1 h)]
    have h1 : 65 ≤ c.val.toNat := by have := h.1; exact this
    have h2 : c.val.toNat ≤ 90 := by have := h.2; exact this
    apply Char.ext
    apply UInt32.toNat_inj.1
    have hv : Nat.isValidChar (c.toNat + 32) := Or.inl (by show c.val.toNat + 32 < _; omega)
    rw [Char.ofNat, dif_pos hv]
    show c.val.toNat + 32 = (c.val + 32).toNat
    rw [UInt32.toNat_add]
    show _ = (c.val.toNat + 32) % 2 ^ 32
    omega
  · rw [if_neg h, dif_neg (fun h' => h (e.2 h'))]

theorem direction_iff {t : Text} {d : Dir} : parseOrderDirection t = some d ↔ Direction t d := by
  have e : t.map lower = t.map Char.toLower := List.map_congr_left fun c _ => lower_eq c
  unfold parseOrderDirection Direction
  rw [e]
  generalize t.map Char.toLower = u
  simp only [show "buy".toList = ['b', 'u', 'y'] from rfl, show "b".toList = ['b'] from rfl, show "sell".toList = ['s', 'e', 'l', 'l'] from rfl,
    show "s".toList = ['s'] from rfl]
  by_cases h1 : u = ['b', 'u', 'y'] ∨ u = ['b']
  · rw [if_pos h1]
    cases d with
    | buy => simpa using h1
    | sell => rcases h1 with rfl | rfl <;> simp
  · rw [if_neg h1]
    by_cases h2 : u = ['s', 'e', 'l', 'l'] ∨ u = ['s']
    · rw [if_pos h2]
      cases d with
      | buy => simpa using h1
      | sell => simpa using h2
    · rw [if_neg h2]
      cases d with
      | buy => simpa using h1
      | sell => simpa using h2

theorem need_safe {α β : Type} {x : Option α} {k : α → Outcome β} (h : ∀ a, x = some a → k a ≠ .panics) : need x k ≠ .panics := by
  cases x with
  | none => simp [need]
  | some a => exact h a rfl

theorem exact_safe {β : Type} {n : Nat} {args : List Text} {k : Outcome β} (h : args.length = n → k ≠ .panics) :
    exactArgs n args k ≠ .panics := by
  unfold exactArgs; split
  · next e => exact h e
  · simp

theorem if_safe {β : Type} {p : Prop} [Decidable p] {k : Outcome β} (h : k ≠ .panics) : (if p then .error else k) ≠ .panics := by
  split
  · simp
  · exact h

theorem order_safe {R : Readers} {u : Nat} {d : Int} {args : List Text} {k : MsgLimitOrder → Outcome Op} (h : ∀ m, k m ≠ .panics) :
    orderArgs R u d args k ≠ .panics :=
  exact_safe fun hl => by
    obtain ⟨a, b, c, d, e, f, rfl⟩ := len6.1 hl
    exact need_safe fun _ _ => need_safe fun _ _ => need_safe fun _ _ => if_safe (need_safe fun _ _ => need_safe fun _ _ => h _)

theorem one_number {args : List Text} {mk : Nat → Request} {r : Request} :
    (exactArgs 1 args <| arg args 0 fun a0 => need (parseUint a0) fun id => .sends (mk id)) = .sends r ↔
      ∃ t id, args = [t] ∧ Numeral t id ∧ r = mk id := by
  rw [exactArgs_sends, len1]
  constructor
  · rintro ⟨⟨a, rfl⟩, h⟩
    simp only [arg_zero, need_sends, Outcome.sends.injEq, parseUint_iff] at h
    obtain ⟨n, h1, rfl⟩ := h
    exact ⟨a, n, rfl, h1, rfl⟩
  · rintro ⟨a, n, rfl, h1, rfl⟩
    refine ⟨⟨a, rfl⟩, ?_⟩
    simp only [arg_zero, need_sends, Outcome.sends.injEq, parseUint_iff]
    exact ⟨n, h1, rfl⟩

theorem number_safe {args : List Text} {mk : Nat → Request} :
    (exactArgs 1 args <| arg args 0 fun a0 => need (parseUint a0) fun id => .sends (mk id)) ≠ .panics :=
  exact_safe fun h => by
    obtain ⟨a, rfl⟩ := len1.1 h
    exact need_safe fun _ _ => by simp

theorem flag_iff {p : Text} {id : Nat} : pairIdFlag p = some id ↔ (p = [] ∧ id = 0 ∨ p ≠ [] ∧ Numeral p id) := by
  unfold pairIdFlag
  by_cases h : p = []
  · simp [h, eq_comm]
  · rw [if_pos h, parseUint_iff]; simp [h]

end Verif.Cli

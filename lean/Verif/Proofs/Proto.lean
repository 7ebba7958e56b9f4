import Verif.Model.Records
import Mathlib.Tactic.Ring
import Mathlib.Tactic.Linarith
import Mathlib.Data.Nat.Bitwise
/-! # Proofs about the wire encoding (C77, C78) -/
namespace Verif.Pb

/-! ## Varints -/

theorem readVarint_loop : ∀ (n v shift acc : Nat) (rest : Bytes), 1 ≤ n → v < 2 ^ (7 * n) → acc + v * 2 ^ shift < 2 ^ 64 →
    readVarintLoop n shift acc (varintLoop n v ++ rest) = some (acc + v * 2 ^ shift, rest)
  | 0, _, _, _, _, h, _, _ => by omega
  | n + 1, v, shift, acc, rest, _, hv, ha => by
    by_cases h : 128 ≤ v
    · have hb : (UInt8.ofNat (v % 128 + 128)).toNat = v % 128 + 128 := by
        rw [UInt8.toNat_ofNat']; omega
      have hs : v * 2 ^ shift = v % 128 * 2 ^ shift + v / 128 * 2 ^ (shift + 7) := by
        rw [pow_add, show v / 128 * (2 ^ shift * 2 ^ 7) = v / 128 * 128 * 2 ^ shift by ring, ← add_mul]
        congr 1
        omega
      have hn : 1 ≤ n := by
        by_contra hc
        have : n = 0 := by omega
        subst this
        norm_num at hv
        omega
      simp only [varintLoop, if_pos h, List.cons_append, readVarintLoop]
      rw [hb, if_neg (by omega), show (v % 128 + 128) % 128 = v % 128 by omega]
      have hlt : acc + v % 128 * 2 ^ shift < 2 ^ 64 := by
        rw [hs] at ha
        have := Nat.zero_le (v / 128 * 2 ^ (shift + 7))
        omega
      rw [Nat.mod_eq_of_lt hlt, readVarint_loop n (v / 128) (shift + 7) _ rest hn ?_ ?_]
      · rw [hs]; congr 2; ring
      · rw [Nat.div_lt_iff_lt_mul (by decide)]
        calc v < 2 ^ (7 * (n + 1)) := hv
          _ = 2 ^ (7 * n) * 128 := by rw [show 7 * (n + 1) = 7 * n + 7 by ring, pow_add]; norm_num
      · rw [hs] at ha; omega
    · have hb : (UInt8.ofNat v).toNat = v := by
        rw [UInt8.toNat_ofNat']; omega
      simp only [varintLoop, if_neg h, List.cons_append, List.nil_append, readVarintLoop]
      rw [hb, if_pos (by omega), show v % 128 = v by omega, Nat.mod_eq_of_lt ha]

theorem read_varint {v : Nat} (h : v < 2 ^ 64) (rest : Bytes) : readVarint (varint v ++ rest) = some (v, rest) := by
  unfold readVarint varint
  rw [readVarint_loop 10 v 0 0 rest (by decide) (lt_of_lt_of_le h (by norm_num)) (by simpa using h)]
  simp

theorem log2_or_one {v : Nat} (h : v ≠ 0) : Nat.log2 (v ||| 1) = Nat.log2 v := by
  have h1 : v ||| 1 ≠ 0 := by
    have := Nat.left_le_or (n := v) (m := 1)
    omega
  rw [Nat.log2_eq_iff h1]
  have h2 := (Nat.log2_eq_iff h).1 rfl
  refine ⟨le_trans h2.1 Nat.left_le_or, Nat.or_lt_two_pow h2.2 ?_⟩
  exact lt_of_lt_of_le (by norm_num) (Nat.pow_le_pow_right (by norm_num) (Nat.succ_le_succ (Nat.zero_le _)))

theorem sov_small {v : Nat} (h : v < 128) : sov v = 1 := by
  unfold sov
  have h1 : v ||| 1 ≠ 0 := by
    have := Nat.right_le_or (n := v) (m := 1)
    omega
  have : Nat.log2 (v ||| 1) < 7 := by
    rw [Nat.log2_lt h1]
    exact Nat.or_lt_two_pow h (by norm_num)
  omega

theorem sov_large {v : Nat} (h : 128 ≤ v) : sov v = sov (v / 128) + 1 := by
  have hw : v / 128 ≠ 0 := by omega
  unfold sov
  rw [log2_or_one (by omega), log2_or_one hw]
  have h2 := (Nat.log2_eq_iff hw).1 rfl
  have h3 : Nat.log2 v = Nat.log2 (v / 128) + 7 := by
    rw [Nat.log2_eq_iff (by omega)]
    constructor
    · rw [pow_add]
      have := h2.1
      norm_num
      omega
    · rw [show Nat.log2 (v / 128) + 7 + 1 = (Nat.log2 (v / 128) + 1) + 7 by ring, pow_add]
      have := h2.2
      norm_num
      omega
  omega

theorem varintLoop_length : ∀ (n v : Nat), 1 ≤ n → v < 2 ^ (7 * n) → (varintLoop n v).length = sov v
  | 0, _, h, _ => by omega
  | n + 1, v, _, hv => by
    by_cases h : 128 ≤ v
    · have hn : 1 ≤ n := by
        by_contra hc
        have : n = 0 := by omega
        subst this
        norm_num at hv
        omega
      simp only [varintLoop, if_pos h, List.length_cons]
      rw [varintLoop_length n (v / 128) hn ?_, sov_large h]
      rw [Nat.div_lt_iff_lt_mul (by decide)]
      calc v < 2 ^ (7 * (n + 1)) := hv
        _ = 2 ^ (7 * n) * 128 := by rw [show 7 * (n + 1) = 7 * n + 7 by ring, pow_add]; norm_num
    · simp only [varintLoop, if_neg h, List.length_singleton]
      rw [sov_small (by omega)]

theorem varint_length {v : Nat} (h : v < 2 ^ 64) : (varint v).length = sov v :=
  varintLoop_length 10 v (by decide) (lt_of_lt_of_le h (by norm_num))

theorem varint_ne {v : Nat} : varint v ≠ [] := by
  unfold varint varintLoop
  split <;> simp

theorem read_bytes {p : Bytes} (h : p.length < 2 ^ 63) (rest : Bytes) : readBytes (withLength p ++ rest) = some (p, rest) := by
  unfold readBytes withLength
  rw [List.append_assoc, read_varint (by omega)]
  simp only
  rw [if_neg (by simp; omega)]
  simp

theorem withLength_length {p : Bytes} (h : p.length < 2 ^ 63) : (withLength p).length = p.length + sov p.length := by
  unfold withLength
  rw [List.length_append, varint_length (by omega)]
  omega

/-! ## The loop -/

variable {M V : Type}

/-- The bytes `p` are a sequence of fields that take the message from `x` to `y`. -/
inductive Reads (fs : List (Field M)) : Bytes → M → M → Prop
  | nil {x : M} : Reads fs [] x x
  | step {p q : Bytes} {x y z : M} (hp : p ≠ []) (h : ∀ rest, parseField fs (p ++ rest) x = some (y, rest)) (hq : Reads fs q y z) :
      Reads fs (p ++ q) x z

theorem Reads.single {fs : List (Field M)} {p : Bytes} {x y : M} (hp : p ≠ []) (h : ∀ rest, parseField fs (p ++ rest) x = some (y, rest)) :
    Reads fs p x y := by
  have := Reads.step hp h (.nil (fs := fs) (x := y))
  rwa [List.append_nil] at this

theorem Reads.append {fs : List (Field M)} {p q : Bytes} {x y z : M} (h : Reads fs p x y) (h' : Reads fs q y z) : Reads fs (p ++ q) x z := by
  induction h with
  | nil => exact h'
  | step hp h _ ih => rw [List.append_assoc]; exact .step hp h (ih h')

theorem Reads.parse {fs : List (Field M)} {p : Bytes} {x y : M} (h : Reads fs p x y) : ∀ n, p.length ≤ n → parseLoop fs n p x = some y := by
  induction h with
  | nil => intro n _; cases n <;> rfl
  | @step p q x y z hp h _ ih =>
    intro n hn
    obtain ⟨b, p', rfl⟩ := List.exists_cons_of_ne_nil hp
    rw [List.length_append, List.length_cons] at hn
    obtain ⟨n, rfl⟩ : ∃ k, n = k + 1 := ⟨n - 1, by omega⟩
    rw [List.cons_append, parseLoop, ← List.cons_append, h q]
    exact ih n (by omega)

/-- The tag of the field with the given number and wire type. -/
structure TagOk (tag : Bytes) (num wt : Nat) : Prop where
  ne : tag ≠ []
  number : 0 < num ∧ num < 2 ^ 29
  wire : wt < 8 ∧ wt ≠ 4
  read : ∀ rest, readVarint (tag ++ rest) = some (8 * num + wt, rest)

theorem parse_known {fs : List (Field M)} {f : Field M} {tag : Bytes} {num wt : Nat} (ht : TagOk tag num wt)
    (hf : fs.find? (fun g => g.num == num) = some f) {p rest : Bytes} {x y : M} (h : f.read wt (p ++ rest) x = some (y, rest)) :
    parseField fs ((tag ++ p) ++ rest) x = some (y, rest) := by
  have h1 := ht.number
  have h2 := ht.wire
  unfold parseField
  rw [List.append_assoc, ht.read]
  simp only
  have e1 : (8 * num + wt) % 8 = wt := by omega
  have e2 : (8 * num + wt) / 8 % 2 ^ 32 = num := by omega
  rw [e1, e2, if_neg h2.2, if_neg (by omega), hf]
  exact h

/-- The field `f` of the message `m` is written, and reading it takes `x` to `y`. -/
def Copies (fs : List (Field M)) (f : Field M) (m x y : M) : Prop :=
  f.size m < 2 ^ 63 → ∃ p, f.put m = some p ∧ p.length = f.size m ∧ Reads fs p x y

/-- The same for a list of fields. -/
def Runs (fs l : List (Field M)) (m x y : M) : Prop :=
  sizeAll l m < 2 ^ 63 → ∃ p, putAll l m = some p ∧ p.length = sizeAll l m ∧ Reads fs p x y

theorem Runs.nil {fs : List (Field M)} {m x : M} : Runs fs [] m x x := fun _ => ⟨[], rfl, rfl, .nil⟩

theorem Runs.cons {fs l : List (Field M)} {f : Field M} {m x y z : M} (h : Copies fs f m x y) (h' : Runs fs l m y z) :
    Runs fs (f :: l) m x z := by
  intro hs
  unfold sizeAll at hs
  obtain ⟨p, h1, h2, h3⟩ := h (by omega)
  obtain ⟨q, k1, k2, k3⟩ := h' (by omega)
  refine ⟨p ++ q, ?_, ?_, h3.append k3⟩
  · simp only [putAll, h1, k1]
  · rw [List.length_append, sizeAll, h2, k2]

/-- What a message codec has to satisfy. -/
def CodecOk (c : Codec V) (v : V) : Prop :=
  c.size v < 2 ^ 63 → ∃ p, c.put v = some p ∧ p.length = c.size v ∧ c.merge p c.zero = some v

theorem Runs.codec {fs : List (Field V)} {zero m : V} (h : Runs fs fs m zero m) : CodecOk (.message fs zero) m := by
  intro hs
  obtain ⟨p, h1, h2, h3⟩ := h hs
  exact ⟨p, h1, h2, h3.parse _ (le_refl _)⟩

theorem Runs.marshal {fs : List (Field M)} {zero m : M} (h : Runs fs fs m zero m) (hs : sizeAll fs m < 2 ^ 63) :
    ∃ p, Pb.marshal fs m = some p ∧ p.length = sizeAll fs m ∧ unmarshal fs p zero = some m := by
  obtain ⟨p, h1, h2, h3⟩ := h hs
  refine ⟨p, ?_, h2, h3.parse _ (le_refl _)⟩
  unfold Pb.marshal
  rw [h1]
  simp only
  rw [if_neg (by omega), ← h2, Nat.sub_self]
  simp

/-! ## The patterns -/

theorem num_copies [DecidableEq V] {fs : List (Field M)} {num : Nat} {tag : Bytes} {zero : V} {enc : V → Nat} {dec : Nat → V} {get : M → V}
    {set : M → V → M} {m x : M} (ht : TagOk tag num 0)
    (hf : fs.find? (fun g => g.num == num) = some (numField num tag zero enc dec get set))
    (he : enc (get m) < 2 ^ 64) (hd : dec (enc (get m)) = get m) (hx : set x zero = x) :
    Copies fs (numField num tag zero enc dec get set) m x (set x (get m)) := by
  intro _
  by_cases h0 : get m = zero
  · refine ⟨[], ?_, ?_, ?_⟩
    · simp only [numField, if_pos h0]
    · simp only [numField, if_pos h0, List.length_nil]
    · rw [h0, hx]; exact .nil
  · refine ⟨tag ++ varint (enc (get m)), ?_, ?_, Reads.single (by simp [ht.ne]) (fun rest => parse_known ht hf ?_)⟩
    · simp only [numField, if_neg h0]
    · simp only [numField, if_neg h0, List.length_append, varint_length he]
    · simp only [numField]
      rw [if_neg (by simp), read_varint he]
      simp only [Option.map_some, hd]

theorem string_copies {fs : List (Field M)} {num : Nat} {tag : Bytes} {get : M → Bytes} {set : M → Bytes → M} {m x : M} (ht : TagOk tag num 2)
    (hf : fs.find? (fun g => g.num == num) = some (stringField num tag get set)) (hx : set x [] = x) :
    Copies fs (stringField num tag get set) m x (set x (get m)) := by
  intro hs
  by_cases h0 : get m = []
  · refine ⟨[], ?_, ?_, ?_⟩
    · simp only [stringField, if_pos h0]
    · simp only [stringField, if_pos h0, List.length_nil]
    · rw [h0, hx]; exact .nil
  · simp only [stringField, if_neg h0] at hs
    have hl : (get m).length < 2 ^ 63 := by omega
    refine ⟨tag ++ withLength (get m), ?_, ?_, Reads.single (by simp [ht.ne]) (fun rest => parse_known ht hf ?_)⟩
    · simp only [stringField, if_neg h0]
    · simp only [stringField, if_neg h0, List.length_append, withLength_length hl]; omega
    · simp only [stringField]
      rw [if_neg (by simp), read_bytes hl]
      rfl

theorem value_copies {fs : List (Field M)} {num : Nat} {tag : Bytes} {c : Codec V} {get : M → V} {set : M → V → M} {m x : M} (ht : TagOk tag num 2)
    (hf : fs.find? (fun g => g.num == num) = some (valueField num tag c get set)) (hc : CodecOk c (get m)) (hx : get x = c.zero) :
    Copies fs (valueField num tag c get set) m x (set x (get m)) := by
  intro hs
  simp only [valueField] at hs
  obtain ⟨p, h1, h2, h3⟩ := hc (by omega)
  have hl : p.length < 2 ^ 63 := by omega
  refine ⟨tag ++ withLength p, ?_, ?_, Reads.single (by simp [ht.ne]) (fun rest => parse_known ht hf ?_)⟩
  · simp only [valueField, h1, Option.map_some]
  · simp only [valueField, List.length_append, withLength_length hl, h2]; omega
  · simp only [valueField]
    rw [if_neg (by simp), read_bytes hl]
    simp only [hx, h3, Option.map_some]

theorem pointer_copies {fs : List (Field M)} {num : Nat} {tag : Bytes} {c : Codec V} {get : M → Option V} {set : M → Option V → M} {m x : M}
    (ht : TagOk tag num 2) (hf : fs.find? (fun g => g.num == num) = some (pointerField num tag c get set))
    (hc : ∀ v, get m = some v → CodecOk c v) (hx : set x none = x) :
    Copies fs (pointerField num tag c get set) m x (set x (get m)) := by
  intro hs
  cases h0 : get m with
  | none =>
    refine ⟨[], ?_, ?_, ?_⟩
    · simp only [pointerField, h0]
    · simp only [pointerField, h0, List.length_nil]
    · rw [hx]; exact .nil
  | some v =>
    simp only [pointerField, h0] at hs
    obtain ⟨p, h1, h2, h3⟩ := hc v h0 (by omega)
    have hl : p.length < 2 ^ 63 := by omega
    refine ⟨tag ++ withLength p, ?_, ?_, Reads.single (by simp [ht.ne]) (fun rest => parse_known ht hf ?_)⟩
    · simp only [pointerField, h0, h1, Option.map_some]
    · simp only [pointerField, h0, List.length_append, withLength_length hl, h2]; omega
    · simp only [pointerField]
      rw [if_neg (by simp), read_bytes hl]
      simp only [h3, Option.map_some]

theorem elems_reads {fs : List (Field M)} {num : Nat} {tag : Bytes} {c : Codec V} {get : M → List V} {set : M → List V → M}
    (ht : TagOk tag num 2) (hf : fs.find? (fun g => g.num == num) = some (repeatedField num tag c get set))
    (hgs : ∀ x l, get (set x l) = l) (hss : ∀ x l l', set (set x l) l' = set x l') :
    ∀ (l acc : List V) (x : M), (∀ v ∈ l, CodecOk c v) → sizeElems tag c l < 2 ^ 63 →
      ∃ p, putElems tag c l = some p ∧ p.length = sizeElems tag c l ∧ Reads fs p (set x acc) (set x (acc ++ l))
  | [], acc, x, _, _ => ⟨[], rfl, rfl, by rw [List.append_nil]; exact .nil⟩
  | v :: l, acc, x, hc, hs => by
    unfold sizeElems at hs
    obtain ⟨p, h1, h2, h3⟩ := hc v (by simp) (by omega)
    have hl : p.length < 2 ^ 63 := by omega
    obtain ⟨q, k1, k2, k3⟩ := elems_reads ht hf hgs hss l (acc ++ [v]) x (fun w hw => hc w (by simp [hw])) (by omega)
    refine ⟨tag ++ withLength p ++ q, ?_, ?_, .step (y := set x (acc ++ [v])) (by simp [ht.ne]) (fun rest => parse_known ht hf ?_) ?_⟩
    · simp only [putElems, h1, k1]
    · simp only [List.length_append, withLength_length hl, h2, k2, sizeElems]; omega
    · simp only [repeatedField]
      rw [if_neg (by simp), read_bytes hl]
      simp only [h3, Option.map_some, hgs, hss]
    · rwa [List.append_assoc] at k3

theorem repeated_copies {fs : List (Field M)} {num : Nat} {tag : Bytes} {c : Codec V} {get : M → List V} {set : M → List V → M} {m x : M}
    (ht : TagOk tag num 2) (hf : fs.find? (fun g => g.num == num) = some (repeatedField num tag c get set))
    (hgs : ∀ x l, get (set x l) = l) (hss : ∀ x l l', set (set x l) l' = set x l') (hc : ∀ v ∈ get m, CodecOk c v) (hx : set x [] = x) :
    Copies fs (repeatedField num tag c get set) m x (set x (get m)) := by
  intro hs
  obtain ⟨p, h1, h2, h3⟩ := elems_reads ht hf hgs hss (get m) [] x hc hs
  rw [hx, List.nil_append] at h3
  exact ⟨p, h1, h2, h3⟩

theorem varints_length {l : List Nat} (h : ∀ v ∈ l, v < 2 ^ 64) : (l.flatMap varint).length = (l.map sov).sum := by
  induction l with
  | nil => rfl
  | cons v l ih =>
    rw [List.flatMap_cons, List.length_append, varint_length (h v (by simp)), ih (fun w hw => h w (by simp [hw]))]
    simp

theorem packed_reads : ∀ (l acc : List Nat) (n : Nat) (rest : Bytes), (∀ v ∈ l, v < 2 ^ 64) → l.length ≤ n →
    readPacked n rest.length (l.flatMap varint ++ rest) acc = some (acc ++ l, rest)
  | [], acc, n, rest, _, _ => by
    cases n <;> simp [readPacked]
  | v :: l, acc, n, rest, h, hn => by
    rw [List.length_cons] at hn
    obtain ⟨n, rfl⟩ : ∃ k, n = k + 1 := ⟨n - 1, by omega⟩
    have hne : 0 < (varint v).length := List.length_pos_iff.2 varint_ne
    rw [readPacked, if_neg (by rw [List.flatMap_cons, List.length_append, List.length_append]; omega), List.flatMap_cons, List.append_assoc,
      read_varint (h v (by simp))]
    simp only
    rw [packed_reads l (acc ++ [v]) n rest (fun w hw => h w (by simp [hw])) (by omega), List.append_assoc]
    rfl

theorem length_le_packed (l : List Nat) : l.length ≤ (l.flatMap varint).length := by
  induction l with
  | nil => simp
  | cons v l ih =>
    have hne : 0 < (varint v).length := List.length_pos_iff.2 varint_ne
    rw [List.flatMap_cons, List.length_append, List.length_cons]
    omega

theorem packed_copies {fs : List (Field M)} {num : Nat} {tag : Bytes} {get : M → List Nat} {set : M → List Nat → M} {m x : M}
    (ht : TagOk tag num 2) (hf : fs.find? (fun g => g.num == num) = some (packedField num tag get set))
    (hv : ∀ v ∈ get m, v < 2 ^ 64) (hg : get x = []) (hx : set x [] = x) :
    Copies fs (packedField num tag get set) m x (set x (get m)) := by
  intro hs
  by_cases h0 : get m = []
  · refine ⟨[], ?_, ?_, ?_⟩
    · simp only [packedField, if_pos h0]
    · simp only [packedField, if_pos h0, List.length_nil]
    · rw [h0, hx]; exact .nil
  · simp only [packedField, if_neg h0] at hs
    have hl : ((get m).flatMap varint).length < 2 ^ 63 := by rw [varints_length hv]; omega
    refine ⟨tag ++ withLength ((get m).flatMap varint), ?_, ?_, Reads.single (by simp [ht.ne]) (fun rest => parse_known ht hf ?_)⟩
    · simp only [packedField, if_neg h0]
    · simp only [packedField, if_neg h0, List.length_append, withLength_length hl, varints_length hv]; omega
    · simp only [packedField]
      rw [if_neg (by decide), if_pos trivial]
      unfold withLength
      rw [List.append_assoc, read_varint (by omega)]
      simp only
      rw [if_neg (by rw [List.length_append]; omega), List.length_append, Nat.add_sub_cancel_left, hg,
        packed_reads (get m) [] _ rest hv (by have := length_le_packed (get m); omega)]
      rfl

/-! ## Custom types -/

/-- The number with the given digits, lowest first. -/
def ofDigits : List Nat → Nat
  | [] => 0
  | d :: ds => d + 10 * ofDigits ds

theorem digitsLoop_spec : ∀ (f n : Nat), n < 10 ^ f → (0 < f) →
    ofDigits (digitsLoop f n) = n ∧ (∀ d ∈ digitsLoop f n, d < 10) ∧ digitsLoop f n ≠ [] ∧ (digitsLoop f n = [0] ∨ (digitsLoop f n).getLast? ≠ some 0)
  | 0, _, _, h => by omega
  | f + 1, n, hn, _ => by
    unfold digitsLoop
    by_cases h : n < 10
    · rw [if_pos h]
      refine ⟨by simp [ofDigits], by simpa using h, by simp, ?_⟩
      by_cases h0 : n = 0
      · left; rw [h0]
      · right; simpa using h0
    · rw [if_neg h]
      have hf : 0 < f := by
        by_contra hc
        have : f = 0 := by omega
        subst this
        omega
      obtain ⟨h1, h2, h3, h4⟩ := digitsLoop_spec f (n / 10) (by rw [Nat.div_lt_iff_lt_mul (by decide)]; rwa [pow_succ] at hn) hf
      refine ⟨?_, ?_, by simp, ?_⟩
      · rw [ofDigits, h1]; omega
      · intro d hd
        rcases List.mem_cons.1 hd with rfl | hd
        · omega
        · exact h2 d hd
      · right
        rcases h4 with h4 | h4
        · exfalso
          rw [h4] at h1
          simp [ofDigits] at h1
          omega
        · obtain ⟨d, l, e⟩ := List.exists_cons_of_ne_nil h3
          rw [e] at h4 ⊢
          rw [List.getLast?_cons_cons]
          exact h4

theorem digits_spec (n : Nat) : ofDigits (digits n) = n ∧ (∀ d ∈ digits n, d < 10) ∧ digits n ≠ [] ∧
    (digits n = [0] ∨ (digits n).getLast? ≠ some 0) := by
  refine digitsLoop_spec _ n ?_ (by omega)
  calc n < 2 ^ (Nat.log2 n + 1) := Nat.lt_log2_self
    _ ≤ 10 ^ (Nat.log2 n + 1) := Nat.pow_le_pow_left (by decide) _

/-- A digit as a character. -/
def digitChar (d : Nat) : UInt8 := UInt8.ofNat (48 + d)

theorem digitChar_toNat {d : Nat} (h : d < 10) : (digitChar d).toNat = 48 + d := by
  unfold digitChar
  rw [UInt8.toNat_ofNat']; omega

theorem numberLoop_append (a b : Bytes) : ∀ acc, numberLoop (a ++ b) acc = (numberLoop a acc).bind (numberLoop b) := by
  induction a with
  | nil => intro acc; rfl
  | cons c a ih =>
    intro acc
    simp only [List.cons_append, numberLoop]
    split
    · exact ih _
    · rfl

theorem numberLoop_digits : ∀ (l : List Nat), (∀ d ∈ l, d < 10) → numberLoop (l.reverse.map digitChar) 0 = some (ofDigits l)
  | [], _ => rfl
  | d :: l, h => by
    have hd := h d (by simp)
    rw [List.reverse_cons, List.map_append, numberLoop_append, numberLoop_digits l (fun e he => h e (by simp [he]))]
    simp only [Option.bind_some, List.map_cons, List.map_nil, numberLoop, digitChar_toNat hd]
    rw [if_pos (by omega), ofDigits]
    congr 1
    omega

theorem number_digits (n : Nat) : number ((digits n).reverse.map digitChar) = some n := by
  obtain ⟨h1, h2, h3, h4⟩ := digits_spec n
  have hl := numberLoop_digits (digits n) h2
  rw [h1] at hl
  obtain ⟨d, l, e⟩ := List.exists_cons_of_ne_nil (show (digits n).reverse ≠ [] by simpa using h3)
  have hd : d < 10 := h2 d (by rw [← List.mem_reverse, e]; simp)
  rw [e] at hl ⊢
  rw [List.map_cons] at hl ⊢
  rw [number, if_neg, hl]
  rintro ⟨k1, k2⟩
  have h0 : d = 0 := by
    have := digitChar_toNat hd
    rw [k1] at this
    simp at this
    omega
  subst h0
  rcases h4 with h4 | h4
  · rw [h4] at e
    simp at e
    subst e
    simp at k2
  · apply h4
    rw [← List.head?_reverse, e]
    rfl

theorem parse_text (x : Int) : parseText (text x) = some x := by
  have hn := number_digits x.natAbs
  have ht : text x = (if x < 0 then [45] else []) ++ (digits x.natAbs).reverse.map digitChar := rfl
  by_cases h : x < 0
  · rw [ht, if_pos h, List.singleton_append]
    rw [parseText, if_pos rfl, hn]
    simp only [Option.map_some]
    congr 1
    omega
  · rw [ht, if_neg h, List.nil_append]
    obtain ⟨h1, h2, h3, h4⟩ := digits_spec x.natAbs
    obtain ⟨d, l, e⟩ := List.exists_cons_of_ne_nil (show (digits x.natAbs).reverse ≠ [] by simpa using h3)
    have hd : d < 10 := h2 d (by rw [← List.mem_reverse, e]; simp)
    have hdn := digitChar_toNat hd
    rw [e] at hn ⊢
    rw [List.map_cons] at hn ⊢
    rw [parseText, if_neg, if_neg, hn]
    · simp only [Option.map_some]
      congr 1
      omega
    · intro k; rw [k] at hdn; simp at hdn; omega
    · intro k; rw [k] at hdn; simp at hdn; omega

theorem text_ne (x : Int) : text x ≠ [] := by
  intro h
  have := parse_text x
  rw [h] at this
  cases this

theorem number_codec {bits : Nat} {x : Int} (h : x.natAbs < 2 ^ bits) : CodecOk (numberCodec bits) x := by
  intro _
  refine ⟨text x, rfl, rfl, ?_⟩
  simp only [numberCodec]
  rw [if_neg (text_ne x), parse_text]
  simp only
  rw [if_pos h]

/-! Integers. -/

theorem toInt64_toUint64 {x : Int} (h : -2 ^ 63 ≤ x ∧ x < 2 ^ 63) : toInt64 (toUint64 x) = x ∧ toUint64 x < 2 ^ 64 := by
  unfold toInt64 toUint64
  omega

theorem toInt32_toUint64 {x : Int} (h : -2 ^ 31 ≤ x ∧ x < 2 ^ 31) : toInt32 (toUint64 x) = x ∧ toUint64 x < 2 ^ 64 := by
  unfold toInt32 toUint64
  omega

theorem tag1 (b : UInt8) (num wt : Nat) (h : b.toNat = 8 * num + wt) (hb : b.toNat < 128) (h0 : 0 < num) (hw : wt < 8 ∧ wt ≠ 4) :
    TagOk [b] num wt where
  ne := by simp
  number := by omega
  wire := hw
  read rest := by
    simp only [readVarint, readVarintLoop, List.singleton_append, if_pos hb, pow_zero, mul_one, zero_add]
    rw [h] at hb ⊢
    congr 2
    omega

theorem stamp_runs {t : Stamp} (h1 : -2 ^ 63 ≤ t.seconds ∧ t.seconds < 2 ^ 63) (h2 : -2 ^ 31 ≤ t.nanos ∧ t.nanos < 2 ^ 31) :
    Runs stampFields stampFields t {} t :=
  .cons (num_copies (tag1 0x08 1 0 rfl (by decide) (by decide) (by decide)) rfl (toInt64_toUint64 h1).2 (toInt64_toUint64 h1).1 rfl) <|
  .cons (num_copies (tag1 0x10 2 0 rfl (by decide) (by decide) (by decide)) rfl (toInt32_toUint64 h2).2 (toInt32_toUint64 h2).1 rfl) .nil

theorem time_codec {t : Stamp} (h : t.validTime = true) : CodecOk timeCodec t := by
  intro hs
  have h' := h
  unfold Stamp.validTime at h'
  simp only [decide_eq_true_eq] at h'
  simp only [timeCodec, if_pos h] at hs ⊢
  obtain ⟨p, h1, h2, h3⟩ := (stamp_runs (t := t) (by omega) (by omega)).codec hs
  have h3 : unmarshal stampFields p {} = some t := h3
  refine ⟨p, h1, h2, ?_⟩
  rw [h3]
  simp only [if_pos h]

theorem duration_codec {d : Int} (h : -2 ^ 63 ≤ d ∧ d < 2 ^ 63) : CodecOk durationCodec d := by
  intro hs
  have hq : -9223372037 ≤ d.tdiv 1000000000 ∧ d.tdiv 1000000000 ≤ 9223372037 ∧
      -1000000000 < d - d.tdiv 1000000000 * 1000000000 ∧ d - d.tdiv 1000000000 * 1000000000 < 1000000000 ∧
      (0 < d.tdiv 1000000000 → 0 ≤ d - d.tdiv 1000000000 * 1000000000) ∧ (d.tdiv 1000000000 < 0 → d - d.tdiv 1000000000 * 1000000000 ≤ 0) := by
    by_cases h0 : 0 ≤ d
    · rw [Int.tdiv_eq_ediv_of_nonneg h0]; omega
    · obtain ⟨e, rfl⟩ : ∃ e, d = -e := ⟨-d, by omega⟩
      rw [Int.neg_tdiv, Int.tdiv_eq_ediv_of_nonneg (by omega)]; omega
  obtain ⟨q1, q2, q3, q4, q5, q6⟩ := hq
  obtain ⟨p, h1, h2, h3⟩ := (stamp_runs (t := durationStamp d) (by unfold durationStamp; simp only; omega)
    (by unfold durationStamp; simp only; omega)).codec hs
  have h3 : unmarshal stampFields p {} = some (durationStamp d) := h3
  refine ⟨p, h1, h2, ?_⟩
  simp only [durationCodec]
  rw [h3]
  unfold durationOf durationStamp
  simp only
  generalize d.tdiv 1000000000 = q at *
  rw [if_neg (by omega), if_neg (by omega), if_neg (by omega), if_neg (by omega)]
  congr 1
  omega


theorem tag2 (b c : UInt8) (num wt : Nat) (h : b.toNat % 128 + c.toNat * 128 = 8 * num + wt) (hb : 128 ≤ b.toNat) (hc : c.toNat < 128)
    (h0 : 0 < num) (hw : wt < 8) (hw' : wt ≠ 4) : TagOk [b, c] num wt where
  ne := by simp
  number := by omega
  wire := ⟨hw, hw'⟩
  read rest := by
    simp only [readVarint, readVarintLoop, List.cons_append, List.nil_append, if_pos hc, if_neg (not_lt.2 hb), pow_zero, mul_one, zero_add]
    congr 2
    norm_num
    omega

theorem u32 {v : Nat} (h : v < 2 ^ 32) : id v < 2 ^ 64 ∧ id v % 2 ^ 32 = v := by
  simp only [id]; omega

theorem bool64 (b : Bool) : b.toNat < 2 ^ 64 ∧ decide (b.toNat ≠ 0) = b := by
  cases b <;> decide

end Verif.Pb

import Verif.Proofs.Proto
import Verif.Spec.WireFormat
/-! # What the field patterns write, compared with the wire format (C77, C78) -/
namespace Verif.Pb
open Format

variable {M V : Type}

theorem leb_varintLoop : ∀ (n v : Nat), 1 ≤ n → v < 2 ^ (7 * n) → varintLoop n v = leb v
  | 0, _, h, _ => by omega
  | n + 1, v, _, hv => by
    rw [leb, varintLoop]
    by_cases h : 128 ≤ v
    · rw [if_pos h, if_neg (by omega)]
      have e : 2 ^ (7 * (n + 1)) = 128 * 2 ^ (7 * n) := by rw [show 7 * (n + 1) = 7 + 7 * n by ring, pow_add]; norm_num
      have hn : 1 ≤ n := by
        by_contra hn
        have : n = 0 := by omega
        subst this; norm_num at hv; omega
      rw [leb_varintLoop n (v / 128) hn (by omega)]
    · rw [if_neg h, if_pos (by omega)]

theorem varint_leb {v : Nat} (h : v < 2 ^ 64) : varint v = leb v := leb_varintLoop 10 v (by norm_num) (by norm_num at h ⊢; omega)

theorem sov_leb (v : Nat) : sov v = (leb v).length := by
  induction v using Nat.strong_induction_on with
  | _ v ih =>
    rw [leb]
    by_cases h : v < 128
    · rw [if_pos h, sov_small h]; rfl
    · rw [if_neg h, sov_large (by omega), ih (v / 128) (by omega)]; rfl

theorem withLength_leb {p : Bytes} (h : p.length < 2 ^ 63) : withLength p = leb p.length ++ p := by
  rw [withLength, varint_leb (by omega)]

/-- The field `f` of the message `m` is announced and written as `w`. -/
structure Writes (f : Field M) (m : M) (w : Bytes) : Prop where
  size : f.size m = w.length
  put : w.length < 2 ^ 63 → f.put m = some w

/-- The same for a list of fields. -/
structure WritesAll (fs : List (Field M)) (m : M) (w : Bytes) : Prop where
  size : sizeAll fs m = w.length
  put : w.length < 2 ^ 63 → putAll fs m = some w

/-- The same for a value. -/
structure CodecWrites (c : Codec V) (v : V) (w : Bytes) : Prop where
  size : c.size v = w.length
  put : w.length < 2 ^ 63 → c.put v = some w

theorem WritesAll.nil {m : M} : WritesAll [] m [] := ⟨rfl, fun _ => rfl⟩

theorem WritesAll.cons {f : Field M} {fs : List (Field M)} {m : M} {a b : Bytes} (h : Writes f m a) (h' : WritesAll fs m b) :
    WritesAll (f :: fs) m (a ++ b) := by
  refine ⟨by rw [sizeAll, h.size, h'.size, List.length_append], fun hl => ?_⟩
  rw [List.length_append] at hl
  rw [putAll, h.put (by omega), h'.put (by omega)]

theorem WritesAll.last {f : Field M} {m : M} {a : Bytes} (h : Writes f m a) : WritesAll [f] m a := by
  have := WritesAll.cons h .nil
  rwa [List.append_nil] at this

theorem WritesAll.codec {fs : List (Field V)} {v zero : V} {w : Bytes} (h : WritesAll fs v w) : CodecWrites (.message fs zero) v w :=
  ⟨h.size, h.put⟩

theorem Runs.sent {fs : List (Field M)} {zero m : M} {w : Bytes} (h : Runs fs fs m zero m) (hw : WritesAll fs m w) (hl : w.length < 2 ^ 63) :
    Sent fs zero m w := by
  obtain ⟨p, h1, h2, h3⟩ := h (by rw [hw.size]; exact hl)
  rw [hw.put hl] at h1
  cases h1
  refine ⟨?_, hw.size, h3.parse _ (le_refl _)⟩
  unfold Pb.marshal
  rw [hw.put hl]
  simp only
  rw [if_neg (by omega), ← h2, Nat.sub_self]
  simp

theorem num_writes [DecidableEq V] {num : Nat} {tag : Bytes} {zero : V} {enc : V → Nat} {dec : Nat → V} {get : M → V} {set : M → V → M} {m : M}
    {v : Nat} (ht : tag = varint (8 * num)) (hn : 8 * num < 2 ^ 64) (he : enc (get m) = v) (hv : v < 2 ^ 64) (hz : get m = zero ↔ v = 0) :
    Writes (numField num tag zero enc dec get set) m (varF num v) := by
  rw [varint_leb hn] at ht
  subst ht
  constructor
  · show (if get m = zero then 0 else (leb (8 * num)).length + sov (enc (get m))) = _
    rw [he, varF]
    by_cases h : v = 0
    · rw [if_pos (hz.2 h), if_pos h]; rfl
    · rw [if_neg (fun x => h (hz.1 x)), if_neg h, sov_leb, List.length_append]
  · intro _
    show some (if get m = zero then [] else leb (8 * num) ++ varint (enc (get m))) = _
    rw [he, varF, varint_leb hv]
    by_cases h : v = 0
    · rw [if_pos (hz.2 h), if_pos h]
    · rw [if_neg (fun x => h (hz.1 x)), if_neg h]

theorem string_writes {num : Nat} {tag : Bytes} {get : M → Bytes} {set : M → Bytes → M} {m : M} (ht : tag = varint (8 * num + 2))
    (hn : 8 * num + 2 < 2 ^ 64) : Writes (stringField num tag get set) m (strF num (get m)) := by
  rw [varint_leb hn] at ht
  subst ht
  constructor
  · show (if get m = [] then 0 else (leb (8 * num + 2)).length + (get m).length + sov (get m).length) = _
    rw [strF]
    by_cases h : get m = []
    · rw [if_pos h, if_pos h]; rfl
    · rw [if_neg h, if_neg h, sov_leb, lenF, List.length_append, List.length_append]; omega
  · intro hl
    show some (if get m = [] then [] else leb (8 * num + 2) ++ withLength (get m)) = _
    rw [strF] at hl ⊢
    by_cases h : get m = []
    · rw [if_pos h, if_pos h]
    · rw [if_neg h] at hl
      rw [lenF, List.length_append] at hl
      rw [if_neg h, if_neg h, withLength_leb (by omega), lenF, List.append_assoc]

theorem value_writes {num : Nat} {tag : Bytes} {c : Codec V} {get : M → V} {set : M → V → M} {m : M} {w : Bytes} (ht : tag = varint (8 * num + 2))
    (hn : 8 * num + 2 < 2 ^ 64) (hc : CodecWrites c (get m) w) : Writes (valueField num tag c get set) m (lenF num w) := by
  rw [varint_leb hn] at ht
  subst ht
  constructor
  · show (leb (8 * num + 2)).length + c.size (get m) + sov (c.size (get m)) = _
    rw [hc.size, sov_leb, lenF, List.length_append, List.length_append]; omega
  · intro hl
    rw [lenF, List.length_append] at hl
    show (c.put (get m)).map (fun p => leb (8 * num + 2) ++ withLength p) = _
    rw [hc.put (by omega), Option.map_some, withLength_leb (by omega), lenF, List.append_assoc]

theorem pointer_writes {num : Nat} {tag : Bytes} {c : Codec V} {get : M → Option V} {set : M → Option V → M} {m : M} {wire : V → Bytes}
    (ht : tag = varint (8 * num + 2)) (hn : 8 * num + 2 < 2 ^ 64) (hc : ∀ v, get m = some v → CodecWrites c v (wire v)) :
    Writes (pointerField num tag c get set) m (optF num wire (get m)) := by
  rw [varint_leb hn] at ht
  subst ht
  cases e : get m with
  | none => exact ⟨by simp only [pointerField, e]; rfl, fun _ => by simp only [pointerField, e]; rfl⟩
  | some v =>
    have hc := hc v e
    constructor
    · simp only [pointerField, e]
      rw [hc.size, sov_leb, optF, lenF, List.length_append, List.length_append]; omega
    · intro hl
      rw [optF, lenF, List.length_append] at hl
      simp only [pointerField, e]
      rw [hc.put (by omega), Option.map_some, withLength_leb (by omega), optF, lenF, List.append_assoc]

theorem elems_writes {num : Nat} {c : Codec V} {wire : V → Bytes} : ∀ (l : List V), (∀ v ∈ l, CodecWrites c v (wire v)) →
    sizeElems (leb (8 * num + 2)) c l = (repF num wire l).length ∧
      ((repF num wire l).length < 2 ^ 63 → putElems (leb (8 * num + 2)) c l = some (repF num wire l))
  | [], _ => ⟨rfl, fun _ => rfl⟩
  | v :: l, hc => by
    have h := elems_writes (num := num) l (fun v hv => hc v (by simp [hv]))
    have hv := hc v (by simp)
    have e : repF num wire (v :: l) = lenF num (wire v) ++ repF num wire l := by simp [repF]
    rw [e, List.length_append]
    constructor
    · rw [sizeElems, h.1, hv.size, sov_leb, lenF, List.length_append, List.length_append]; omega
    · intro hl
      rw [lenF, List.length_append] at hl
      rw [putElems, hv.put (by omega), h.2 (by omega)]
      simp only []
      rw [withLength_leb (by omega), lenF]; simp only [List.append_assoc]

theorem repeated_writes {num : Nat} {tag : Bytes} {c : Codec V} {get : M → List V} {set : M → List V → M} {m : M} {wire : V → Bytes}
    (ht : tag = varint (8 * num + 2)) (hn : 8 * num + 2 < 2 ^ 64) (hc : ∀ v ∈ get m, CodecWrites c v (wire v)) :
    Writes (repeatedField num tag c get set) m (repF num wire (get m)) := by
  rw [varint_leb hn] at ht
  subst ht
  exact ⟨(elems_writes _ hc).1, (elems_writes _ hc).2⟩

theorem packed_writes {num : Nat} {tag : Bytes} {get : M → List Nat} {set : M → List Nat → M} {m : M}
    (ht : tag = varint (8 * num + 2)) (hn : 8 * num + 2 < 2 ^ 64) (hv : ∀ v ∈ get m, v < 2 ^ 64) :
    Writes (packedField num tag get set) m (packF num (get m)) := by
  rw [varint_leb hn] at ht
  subst ht
  have hs : ((get m).map sov).sum = ((get m).flatMap leb).length := by
    rw [List.length_flatMap]; congr 1; apply List.map_congr_left; intro v _; exact sov_leb v
  have hp : (get m).flatMap varint = (get m).flatMap leb := by
    rw [List.flatMap_def, List.flatMap_def]; congr 1; apply List.map_congr_left; intro v h; exact varint_leb (hv v h)
  constructor
  · show (if get m = [] then 0 else (leb (8 * num + 2)).length + sov ((get m).map sov).sum + ((get m).map sov).sum) = _
    rw [packF, hs]
    by_cases h : get m = []
    · rw [if_pos h, if_pos h]; rfl
    · rw [if_neg h, if_neg h, sov_leb, lenF, List.length_append, List.length_append]
  · intro hl
    show some (if get m = [] then [] else leb (8 * num + 2) ++ withLength ((get m).flatMap varint)) = _
    rw [packF] at hl ⊢
    by_cases h : get m = []
    · rw [if_pos h, if_pos h]
    · rw [if_neg h] at hl
      rw [lenF, List.length_append] at hl
      rw [if_neg h, if_neg h, hp, withLength_leb (by omega), lenF, List.append_assoc]

theorem digitsLoop_digits : ∀ (f n : Nat), n < 10 ^ f → 0 < n → digitsLoop f n = Nat.digits 10 n
  | 0, n, h, h' => by simp at h; omega
  | f + 1, n, h, h' => by
    rw [digitsLoop]
    by_cases hn : n < 10
    · rw [if_pos hn, Nat.digits_of_lt 10 n (by omega) hn]
    · rw [if_neg hn, Nat.digits_def' (by norm_num) h', digitsLoop_digits f (n / 10) (by rw [pow_succ] at h; omega) (by omega)]

theorem digits_digits {n : Nat} (h : 0 < n) : digits n = Nat.digits 10 n := by
  refine digitsLoop_digits _ n ?_ h
  calc n < 2 ^ (Nat.log2 n + 1) := Nat.lt_log2_self
    _ ≤ 10 ^ (Nat.log2 n + 1) := Nat.pow_le_pow_left (by norm_num) _

theorem text_decimal (x : Int) : text x = decimal x := by
  rw [text, decimal]
  congr 1
  by_cases h : x = 0
  · subst h; decide
  · rw [if_neg h, digits_digits (by omega)]

theorem number_writes {b : Nat} {x : Int} : CodecWrites (numberCodec b) x (decimal x) :=
  ⟨by rw [← text_decimal]; rfl, fun _ => by rw [← text_decimal]; rfl⟩

theorem toUint64_bits (x : Int) : toUint64 x = bits x := rfl

theorem bits_lt (x : Int) : bits x < 2 ^ 64 := by unfold bits; omega

theorem bits_zero {x : Int} (h : -2 ^ 63 ≤ x ∧ x < 2 ^ 63) : x = 0 ↔ bits x = 0 := by unfold bits; omega

theorem bits_zero32 {x : Int} (h : -2 ^ 31 ≤ x ∧ x < 2 ^ 31) : x = 0 ↔ bits x = 0 := by unfold bits; omega

theorem bit_toNat (b : Bool) : b.toNat = bit b := by cases b <;> rfl
theorem bit_lt (b : Bool) : bit b < 2 ^ 64 := by cases b <;> decide
theorem bit_zero (b : Bool) : b = false ↔ bit b = 0 := by cases b <;> decide
theorem lt32 {v : Nat} (h : v < 2 ^ 32) : v < 2 ^ 64 := by omega

theorem stamp_writes {t : Stamp} (h : -2 ^ 63 ≤ t.seconds ∧ t.seconds < 2 ^ 63) (h' : -2 ^ 31 ≤ t.nanos ∧ t.nanos < 2 ^ 31) :
    WritesAll stampFields t (time t) := by
  have := WritesAll.cons (num_writes (M := Stamp) (num := 1) (tag := [0x08]) (zero := (0 : Int)) (enc := toUint64) (dec := toInt64)
    (get := (·.seconds)) (set := fun m v => { m with seconds := v }) (m := t) rfl (by norm_num) (toUint64_bits _) (bits_lt _) (bits_zero h))
    (WritesAll.cons (num_writes (M := Stamp) (num := 2) (tag := [0x10]) (zero := (0 : Int)) (enc := toUint64) (dec := toInt32)
    (get := (·.nanos)) (set := fun m v => { m with nanos := v }) (m := t) rfl (by norm_num) (toUint64_bits _) (bits_lt _) (bits_zero32 h')) .nil)
  rw [List.append_nil] at this
  exact this

theorem time_writes {t : Stamp} (h : t.validTime = true) : CodecWrites timeCodec t (time t) := by
  have hb := of_decide_eq_true h
  have w := stamp_writes (t := t) (by omega) (by omega)
  exact ⟨by show (if t.validTime = true then _ else _) = _; rw [if_pos h]; exact w.size,
    fun hl => by show (if t.validTime = true then _ else _) = _; rw [if_pos h]; exact w.put hl⟩

theorem duration_writes {d : Int} (h : -2 ^ 63 ≤ d ∧ d < 2 ^ 63) : CodecWrites durationCodec d (duration d) := by
  have e : durationStamp d = { seconds := d.tdiv 1000000000, nanos := d.tmod 1000000000 } := by
    rw [durationStamp, Int.tmod_def, mul_comm]
  have h1 := Int.tmod_add_mul_tdiv d 1000000000
  have h2 : |d.tmod 1000000000| < 1000000000 := by
    rw [← Int.natCast_natAbs, Int.natAbs_tmod]; have := Nat.mod_lt d.natAbs (y := 1000000000) (by norm_num)
    norm_cast
  rw [abs_lt] at h2
  have w := stamp_writes (t := { seconds := d.tdiv 1000000000, nanos := d.tmod 1000000000 }) (by dsimp only; omega) (by dsimp only; omega)
  exact ⟨by show sizeAll stampFields (durationStamp d) = _; rw [e]; exact w.size,
    fun hl => by show putAll stampFields (durationStamp d) = _; rw [e]; exact w.put hl⟩

end Verif.Pb

import Verif.Proofs.Format
/-! # Encodings one after the other, and unknown fields (C79) -/
namespace Verif.Pb
open Format

variable {M V : Type}

/-! ## Reading does not look beyond what it reads -/

theorem readVarintLoop_app {e : Bytes} : ∀ (n s a : Nat) (bs : Bytes) {v : Nat} {r : Bytes}, readVarintLoop n s a bs = some (v, r) →
    readVarintLoop n s a (bs ++ e) = some (v, r ++ e)
  | 0, _, _, _, _, _, h => by simp [readVarintLoop] at h
  | _ + 1, _, _, [], _, _, h => by simp [readVarintLoop] at h
  | n + 1, s, a, b :: bs, v, r, h => by
    rw [List.cons_append, readVarintLoop]
    rw [readVarintLoop] at h
    by_cases hb : b.toNat < 128
    · rw [if_pos hb] at h ⊢
      cases h; rfl
    · rw [if_neg hb] at h ⊢
      exact readVarintLoop_app n _ _ bs h

theorem readVarint_app {e bs : Bytes} {v : Nat} {r : Bytes} (h : readVarint bs = some (v, r)) : readVarint (bs ++ e) = some (v, r ++ e) :=
  readVarintLoop_app 10 0 0 bs h

theorem readBytes_app {e bs p r : Bytes} (h : readBytes bs = some (p, r)) : readBytes (bs ++ e) = some (p, r ++ e) := by
  unfold readBytes at h ⊢
  cases hv : readVarint bs with
  | none => rw [hv] at h; simp at h
  | some x =>
    obtain ⟨n, q⟩ := x
    rw [hv] at h
    rw [readVarint_app hv]
    dsimp only at h ⊢
    by_cases hc : 2 ^ 63 ≤ n ∨ q.length < n
    · rw [if_pos hc] at h; simp at h
    · rw [if_neg hc] at h
      rw [if_neg (by rw [List.length_append]; omega)]
      cases h
      rw [List.take_append_of_le_length (by omega), List.drop_append_of_le_length (by omega)]

theorem skipVarint_app {e : Bytes} : ∀ (n : Nat) (bs : Bytes) {r : Bytes}, skipVarint n bs = some r → skipVarint n (bs ++ e) = some (r ++ e)
  | 0, _, _, h => by simp [skipVarint] at h
  | _ + 1, [], _, h => by simp [skipVarint] at h
  | n + 1, b :: bs, r, h => by
    rw [List.cons_append, skipVarint]
    rw [skipVarint] at h
    by_cases hb : b.toNat < 128
    · rw [if_pos hb] at h ⊢
      cases h; rfl
    · rw [if_neg hb] at h ⊢
      exact skipVarint_app n bs h

theorem skipValue_app {e bs : Bytes} {wt d d' : Nat} {r : Bytes} (h : skipValue wt d bs = some (d', r)) :
    skipValue wt d (bs ++ e) = some (d', r ++ e) := by
  unfold skipValue at h ⊢
  split at h
  · obtain ⟨q, hq, e'⟩ := Option.map_eq_some_iff.1 h
    cases e'
    rw [skipVarint_app 10 bs hq]; rfl
  · by_cases hl : bs.length < 8
    · rw [if_pos hl] at h; simp at h
    · rw [if_neg hl] at h
      cases h
      rw [if_neg (by rw [List.length_append]; omega), List.drop_append_of_le_length (by omega)]
  · obtain ⟨q, hq, e'⟩ := Option.map_eq_some_iff.1 h
    cases e'
    rw [readBytes_app (p := q.1) (r := q.2) hq]; rfl
  · cases h; rfl
  · by_cases hl : d = 0
    · rw [if_pos hl] at h; simp at h
    · rw [if_neg hl] at h
      cases h
      rw [if_neg hl]
  · by_cases hl : bs.length < 4
    · rw [if_pos hl] at h; simp at h
    · rw [if_neg hl] at h
      cases h
      rw [if_neg (by rw [List.length_append]; omega), List.drop_append_of_le_length (by omega)]
  · simp at h

theorem skip_app {e : Bytes} : ∀ (n k d : Nat) (bs : Bytes) {r : Bytes}, skip n d bs = some r → skip (n + k) d (bs ++ e) = some (r ++ e)
  | 0, _, _, _, _, h => by simp [skip] at h
  | n + 1, k, d, bs, r, h => by
    rw [show n + 1 + k = n + k + 1 by omega, skip]
    rw [skip] at h
    cases hv : readVarint bs with
    | none => rw [hv] at h; simp at h
    | some x =>
      obtain ⟨w, q⟩ := x
      rw [hv] at h
      rw [readVarint_app hv]
      dsimp only at h ⊢
      cases hs : skipValue (w % 8) d q with
      | none => rw [hs] at h; simp at h
      | some y =>
        obtain ⟨d', q'⟩ := y
        rw [hs] at h
        rw [skipValue_app hs]
        dsimp only at h ⊢
        by_cases hd : d' = 0
        · rw [if_pos hd] at h ⊢
          cases h; rfl
        · rw [if_neg hd] at h ⊢
          exact skip_app n k d' q' h

theorem readPacked_app {e : Bytes} : ∀ (n k s : Nat) (bs : Bytes) (acc : List Nat) {l : List Nat} {r : Bytes}, readPacked n s bs acc = some (l, r) →
    readPacked (n + k) (s + e.length) (bs ++ e) acc = some (l, r ++ e)
  | 0, k, s, bs, acc, l, r, h => by
    rw [readPacked] at h
    by_cases hl : bs.length ≤ s
    · rw [if_pos hl] at h
      cases h
      cases k with
      | zero => rw [Nat.zero_add, readPacked, if_pos (by rw [List.length_append]; omega)]
      | succ k => rw [Nat.zero_add, readPacked, if_pos (by rw [List.length_append]; omega)]
    · rw [if_neg hl] at h; simp at h
  | n + 1, k, s, bs, acc, l, r, h => by
    rw [show n + 1 + k = n + k + 1 by omega, readPacked]
    rw [readPacked] at h
    by_cases hl : bs.length ≤ s
    · rw [if_pos hl] at h
      cases h
      rw [if_pos (by rw [List.length_append]; omega)]
    · rw [if_neg hl] at h
      rw [if_neg (by rw [List.length_append]; omega)]
      cases hv : readVarint bs with
      | none => rw [hv] at h; simp at h
      | some x =>
        obtain ⟨v, q⟩ := x
        rw [hv] at h
        rw [readVarint_app hv]
        exact readPacked_app n k s q _ h

/-- Reading the field does not look beyond what it reads. -/
def Stable (f : Field M) : Prop :=
  ∀ (wt : Nat) (bs : Bytes) (x y : M) (r e : Bytes), f.read wt bs x = some (y, r) → f.read wt (bs ++ e) x = some (y, r ++ e)

theorem num_stable [DecidableEq V] {num : Nat} {tag : Bytes} {zero : V} {enc : V → Nat} {dec : Nat → V} {get : M → V} {set : M → V → M} :
    Stable (numField num tag zero enc dec get set) := by
  intro wt bs x y r e h
  simp only [numField] at h ⊢
  by_cases hw : wt ≠ 0
  · rw [if_pos hw] at h; simp at h
  · rw [if_neg hw] at h ⊢
    obtain ⟨q, hq, e'⟩ := Option.map_eq_some_iff.1 h
    cases e'
    rw [readVarint_app (v := q.1) (r := q.2) hq]; rfl

theorem string_stable {num : Nat} {tag : Bytes} {get : M → Bytes} {set : M → Bytes → M} : Stable (stringField num tag get set) := by
  intro wt bs x y r e h
  simp only [stringField] at h ⊢
  by_cases hw : wt ≠ 2
  · rw [if_pos hw] at h; simp at h
  · rw [if_neg hw] at h ⊢
    obtain ⟨q, hq, e'⟩ := Option.map_eq_some_iff.1 h
    cases e'
    rw [readBytes_app (p := q.1) (r := q.2) hq]; rfl

theorem value_stable {num : Nat} {tag : Bytes} {c : Codec V} {get : M → V} {set : M → V → M} : Stable (valueField num tag c get set) := by
  intro wt bs x y r e h
  simp only [valueField] at h ⊢
  by_cases hw : wt ≠ 2
  · rw [if_pos hw] at h; simp at h
  · rw [if_neg hw] at h ⊢
    cases hb : readBytes bs with
    | none => rw [hb] at h; simp at h
    | some x =>
      obtain ⟨p, q⟩ := x
      rw [hb] at h
      rw [readBytes_app hb]
      dsimp only at h ⊢
      obtain ⟨v, hv, e'⟩ := Option.map_eq_some_iff.1 h
      cases e'
      rw [hv]; rfl

theorem pointer_stable {num : Nat} {tag : Bytes} {c : Codec V} {get : M → Option V} {set : M → Option V → M} :
    Stable (pointerField num tag c get set) := by
  intro wt bs x y r e h
  simp only [pointerField] at h ⊢
  by_cases hw : wt ≠ 2
  · rw [if_pos hw] at h; simp at h
  · rw [if_neg hw] at h ⊢
    cases hb : readBytes bs with
    | none => rw [hb] at h; simp at h
    | some x =>
      obtain ⟨p, q⟩ := x
      rw [hb] at h
      rw [readBytes_app hb]
      dsimp only at h ⊢
      obtain ⟨v, hv, e'⟩ := Option.map_eq_some_iff.1 h
      cases e'
      rw [hv]; rfl

theorem repeated_stable {num : Nat} {tag : Bytes} {c : Codec V} {get : M → List V} {set : M → List V → M} :
    Stable (repeatedField num tag c get set) := by
  intro wt bs x y r e h
  simp only [repeatedField] at h ⊢
  by_cases hw : wt ≠ 2
  · rw [if_pos hw] at h; simp at h
  · rw [if_neg hw] at h ⊢
    cases hb : readBytes bs with
    | none => rw [hb] at h; simp at h
    | some x =>
      obtain ⟨p, q⟩ := x
      rw [hb] at h
      rw [readBytes_app hb]
      dsimp only at h ⊢
      obtain ⟨v, hv, e'⟩ := Option.map_eq_some_iff.1 h
      cases e'
      rw [hv]; rfl

theorem packed_stable {num : Nat} {tag : Bytes} {get : M → List Nat} {set : M → List Nat → M} : Stable (packedField num tag get set) := by
  intro wt bs x y r e h
  simp only [packedField] at h ⊢
  by_cases hw : wt = 0
  · rw [if_pos hw] at h ⊢
    obtain ⟨q, hq, e'⟩ := Option.map_eq_some_iff.1 h
    cases e'
    rw [readVarint_app (v := q.1) (r := q.2) hq]; rfl
  · rw [if_neg hw] at h ⊢
    by_cases hw : wt = 2
    · rw [if_pos hw] at h ⊢
      cases hv : readVarint bs with
      | none => rw [hv] at h; simp at h
      | some a =>
        obtain ⟨n, q⟩ := a
        rw [hv] at h
        rw [readVarint_app hv]
        dsimp only at h ⊢
        by_cases hc : 2 ^ 63 ≤ n ∨ q.length < n
        · rw [if_pos hc] at h; simp at h
        · rw [if_neg hc] at h
          rw [if_neg (by rw [List.length_append]; omega)]
          obtain ⟨z, hz, e'⟩ := Option.map_eq_some_iff.1 h
          cases e'
          rw [List.length_append, show q.length + e.length - n = q.length - n + e.length by omega,
            readPacked_app (l := z.1) (r := z.2) q.length e.length _ q _ hz]; rfl
    · rw [if_neg hw] at h; simp at h

theorem parseField_app {fs : List (Field M)} (hs : ∀ f ∈ fs, Stable f) {bs e r : Bytes} {x y : M} (h : parseField fs bs x = some (y, r)) :
    parseField fs (bs ++ e) x = some (y, r ++ e) := by
  unfold parseField at h ⊢
  cases hv : readVarint bs with
  | none => rw [hv] at h; simp at h
  | some a =>
    obtain ⟨w, q⟩ := a
    rw [hv] at h
    rw [readVarint_app hv]
    dsimp only at h ⊢
    by_cases h4 : w % 8 = 4
    · rw [if_pos h4] at h; simp at h
    · rw [if_neg h4] at h ⊢
      by_cases hn : w / 8 % 2 ^ 32 = 0 ∨ 2 ^ 31 ≤ w / 8 % 2 ^ 32
      · rw [if_pos hn] at h; simp at h
      · rw [if_neg hn] at h ⊢
        cases hf : fs.find? (fun f => f.num == w / 8 % 2 ^ 32) with
        | some f =>
          rw [hf] at h
          exact hs f (List.mem_of_find?_eq_some hf) _ _ _ _ _ _ h
        | none =>
          rw [hf] at h
          dsimp only at h ⊢
          obtain ⟨z, hz, e'⟩ := Option.map_eq_some_iff.1 h
          cases e'
          rw [List.length_append, skip_app _ _ _ _ hz]; rfl

theorem parseLoop_fuel {fs : List (Field M)} : ∀ (n k : Nat) (bs : Bytes) {x y : M}, parseLoop fs n bs x = some y → parseLoop fs (n + k) bs x = some y
  | n, k, [], x, y, h => by
    rw [parseLoop] at h ⊢; exact h
  | 0, _, _ :: _, _, _, h => by simp [parseLoop] at h
  | n + 1, k, b :: bs, x, y, h => by
    rw [show n + 1 + k = n + k + 1 by omega, parseLoop]
    rw [parseLoop] at h
    cases hp : parseField fs (b :: bs) x with
    | none => rw [hp] at h; simp at h
    | some a =>
      obtain ⟨m, r⟩ := a
      rw [hp] at h
      exact parseLoop_fuel n k r h

theorem parseLoop_app {fs : List (Field M)} (hs : ∀ f ∈ fs, Stable f) {q : Bytes} {z : M} : ∀ (n : Nat) (p : Bytes) {x y : M},
    parseLoop fs n p x = some y → unmarshal fs q y = some z → parseLoop fs (n + q.length) (p ++ q) x = some z
  | n, [], x, y, h, h' => by
    rw [parseLoop] at h
    cases h
    rw [List.nil_append, Nat.add_comm]
    exact parseLoop_fuel _ _ _ h'
  | 0, _ :: _, _, _, h, _ => by simp [parseLoop] at h
  | n + 1, b :: p, x, y, h, h' => by
    rw [show n + 1 + q.length = n + q.length + 1 by omega, List.cons_append, parseLoop]
    rw [parseLoop] at h
    cases hp : parseField fs (b :: p) x with
    | none => rw [hp] at h; simp at h
    | some a =>
      obtain ⟨m, r⟩ := a
      rw [hp] at h
      have := parseField_app hs (e := q) hp
      rw [List.cons_append] at this
      rw [this]
      exact parseLoop_app hs n r h h'

theorem merges_of_stable {fs : List (Field M)} (hs : ∀ f ∈ fs, Stable f) : Merges fs := by
  intro p q x y z h h'
  unfold unmarshal at h ⊢
  rw [List.length_append]
  exact parseLoop_app hs _ _ h h'

/-! ## Unknown fields -/

theorem skip_leb : ∀ (n v : Nat) (rest : Bytes), 1 ≤ n → v < 2 ^ (7 * n) → skipVarint n (leb v ++ rest) = some rest
  | 0, _, _, h, _ => by omega
  | n + 1, v, rest, _, hv => by
    rw [leb]
    by_cases h : v < 128
    · rw [if_pos h, List.singleton_append, skipVarint, if_pos]
      simp only [UInt8.toNat_ofNat']; omega
    · have e : 2 ^ (7 * (n + 1)) = 128 * 2 ^ (7 * n) := by rw [show 7 * (n + 1) = 7 + 7 * n by ring, pow_add]; norm_num
      have hn : 1 ≤ n := by
        by_contra hn
        have : n = 0 := by omega
        subst this; norm_num at hv; omega
      rw [if_neg h, List.cons_append, skipVarint, if_neg, skip_leb n _ rest hn (by omega)]
      simp only [UInt8.toNat_ofNat']; omega

theorem read_leb {v : Nat} (h : v < 2 ^ 64) (rest : Bytes) : readVarint (leb v ++ rest) = some (v, rest) := by
  rw [← varint_leb h]; exact read_varint h rest

theorem leb_length (v : Nat) : 1 ≤ (leb v).length := by
  rw [leb]; split <;> simp

/-- One step of `skip`. -/
theorem skip_step {n d d' v : Nat} {bs rest : Bytes} (hv : v < 2 ^ 64) (h : skipValue (v % 8) d bs = some (d', rest)) :
    skip (n + 1) d (leb v ++ bs) = if d' = 0 then some rest else skip n d' rest := by
  rw [skip, read_leb hv]
  dsimp only
  rw [h]

/-- After a field, at any depth. -/
def after (n d : Nat) (rest : Bytes) : Option Bytes := if d = 0 then some rest else skip n d rest

theorem raw_skip {num : Nat} {u : Bytes} (h : Raw num u) : ∃ k, k + 1 ≤ u.length ∧ ∀ n d rest, skip (n + k + 1) d (u ++ rest) = after n d rest := by
  induction h with
  | @int num v h hv =>
    refine ⟨0, by rw [List.length_append]; have := leb_length (8 * num); omega, fun n d rest => ?_⟩
    rw [List.append_assoc]
    refine skip_step (by omega) ?_
    rw [show 8 * num % 8 = 0 by omega]
    show (skipVarint 10 _).map _ = _
    rw [skip_leb 10 v rest (by norm_num) (by norm_num at hv ⊢; omega)]; rfl
  | @eight num p h hp =>
    refine ⟨0, by rw [List.length_append]; omega, fun n d rest => ?_⟩
    rw [List.append_assoc]
    refine skip_step (by omega) ?_
    rw [show (8 * num + 1) % 8 = 1 by omega]
    show (if (p ++ rest).length < 8 then none else some (d, (p ++ rest).drop 8)) = _
    rw [if_neg (by rw [List.length_append]; omega), ← hp, List.drop_left]
  | @bytes num p h hp =>
    refine ⟨0, by rw [lenF, List.length_append, List.length_append]; have := leb_length (8 * num + 2); omega, fun n d rest => ?_⟩
    rw [lenF, List.append_assoc, List.append_assoc]
    refine skip_step (by omega) ?_
    rw [show (8 * num + 2) % 8 = 2 by omega]
    show (readBytes _).map _ = _
    rw [← List.append_assoc, ← withLength_leb hp, read_bytes hp]; rfl
  | @four num p h hp =>
    refine ⟨0, by rw [List.length_append]; omega, fun n d rest => ?_⟩
    rw [List.append_assoc]
    refine skip_step (by omega) ?_
    rw [show (8 * num + 5) % 8 = 5 by omega]
    show (if (p ++ rest).length < 4 then none else some (d, (p ++ rest).drop 4)) = _
    rw [if_neg (by rw [List.length_append]; omega), ← hp, List.drop_left]
  | @group num inner h hi ih =>
    have hin : ∃ k, k ≤ (inner.flatMap (·.2)).length ∧ ∀ n d rest, skip (n + k) (d + 1) (inner.flatMap (·.2) ++ rest) = skip n (d + 1) rest := by
      clear hi
      induction inner with
      | nil => exact ⟨0, by simp, fun n d rest => by simp⟩
      | cons f inner IH =>
        obtain ⟨k, hk, H⟩ := IH (fun g hg => ih g (by simp [hg]))
        obtain ⟨k', hk', H'⟩ := ih f (by simp)
        refine ⟨k + k' + 1, by rw [List.flatMap_cons, List.length_append]; omega, fun n d rest => ?_⟩
        rw [List.flatMap_cons, List.append_assoc, show n + (k + k' + 1) = n + k + k' + 1 by omega, H', after, if_neg (by omega), H]
    obtain ⟨k, hk, H⟩ := hin
    refine ⟨k + 1, ?_, fun n d rest => ?_⟩
    · have := leb_length (8 * num + 3)
      have := leb_length (8 * num + 4)
      rw [List.length_append, List.length_append]; omega
    · rw [List.append_assoc, List.append_assoc, show n + (k + 1) + 1 = (n + 1 + k) + 1 by omega,
        skip_step (d' := d + 1) (rest := inner.flatMap (·.2) ++ (leb (8 * num + 4) ++ rest)) (by omega)
          (by rw [show (8 * num + 3) % 8 = 3 by omega]; rfl), if_neg (by omega), H,
        skip_step (d' := d) (rest := rest) (by omega) (by rw [show (8 * num + 4) % 8 = 4 by omega]; rfl)]
      rfl

theorem raw_tag {num : Nat} {u : Bytes} (h : Raw num u) :
    0 < num ∧ num < 2 ^ 29 ∧ ∃ wt rest, wt < 8 ∧ wt ≠ 4 ∧ u = leb (8 * num + wt) ++ rest := by
  cases h with
  | int h hv => exact ⟨h.1, h.2, 0, _, by norm_num, by norm_num, rfl⟩
  | eight h hp => exact ⟨h.1, h.2, 1, _, by norm_num, by norm_num, rfl⟩
  | bytes h hp => exact ⟨h.1, h.2, 2, _, by norm_num, by norm_num, by rw [lenF, List.append_assoc]⟩
  | four h hp => exact ⟨h.1, h.2, 5, _, by norm_num, by norm_num, rfl⟩
  | group h hi => exact ⟨h.1, h.2, 3, _, by norm_num, by norm_num, List.append_assoc _ _ _⟩

theorem unknown_parse {fs : List (Field M)} {num : Nat} {u : Bytes} (h : Raw num u) (hf : ∀ f ∈ fs, f.num ≠ num) (rest : Bytes) (x : M) :
    parseField fs (u ++ rest) x = some (x, rest) := by
  obtain ⟨h0, h29, wt, q, hw, h4, e⟩ := raw_tag h
  obtain ⟨k, hk, H⟩ := raw_skip h
  have hv : readVarint (u ++ rest) = some (8 * num + wt, q ++ rest) := by rw [e, List.append_assoc]; exact read_leb (by omega) _
  unfold parseField
  rw [hv]
  dsimp only
  have hd : (8 * num + wt) / 8 % 2 ^ 32 = num := by omega
  have hm : (8 * num + wt) % 8 = wt := by omega
  have hnone : fs.find? (fun f => f.num == num) = none := by
    rw [List.find?_eq_none]
    intro f hf'
    simpa using hf f hf'
  rw [hd, hm, if_neg h4, if_neg (by omega), hnone]
  dsimp only
  rw [List.length_append, show u.length + rest.length = u.length + rest.length - k - 1 + k + 1 by omega, H, after, if_pos rfl]
  rfl

theorem unknown_read {fs : List (Field M)} {num : Nat} {u : Bytes} (h : Raw num u) (hf : ∀ f ∈ fs, f.num ≠ num) (x : M) :
    unmarshal fs u x = some x := by
  obtain ⟨k, hk, _⟩ := raw_skip h
  have hne : u ≠ [] := by
    intro e
    rw [e] at hk
    simp at hk
  exact (Reads.single hne (fun rest => unknown_parse h hf rest x)).parse _ (le_refl _)

end Verif.Pb

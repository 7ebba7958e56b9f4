import Verif.Model.UtilBytes
import Verif.Proofs.Keys
import Verif.Proofs.Proto
/-! # C52: byte helpers -/
namespace Verif.Props
open Verif Verif.Dex Verif.Dex.Keys Verif.Util

/-- **C52** A 32-bit number comes back from its four bytes, whatever follows them, and the bytes are ordered as the numbers. -/
theorem C52_uint32_bytes (m n : UInt32) (rest : Bytes) :
    (uint32ToBigEndian n).length = 4 ∧ bigEndianToUint32 (uint32ToBigEndian n ++ rest) = some n ∧
      (uint32ToBigEndian m < uint32ToBigEndian n ↔ m < n) := by
  have hm : m.toNat < 256 ^ 4 := m.toNat_lt
  have hn : n.toNat < 256 ^ 4 := n.toNat_lt
  have hl : (uint32ToBigEndian n).length = 4 := bigEndian_length 4 _
  refine ⟨hl, ?_, ?_⟩
  · unfold bigEndianToUint32
    rw [if_neg (by rw [List.length_append]; omega), if_neg (by rw [List.length_append]; omega), List.take_append_of_le_length (by omega),
      List.take_of_length_le (by omega)]
    unfold uint32ToBigEndian
    rw [fromBigEndian_bigEndian hn, UInt32.ofNat_toNat]
  · unfold uint32ToBigEndian
    rw [bigEndian_lt hm hn, UInt32.lt_iff_toNat_lt]

/-- **C52** One to three bytes are no 32-bit number: reading them panics; no bytes read as zero. -/
theorem C52_uint32_panics (b : Bytes) : bigEndianToUint32 b = none ↔ 1 ≤ b.length ∧ b.length ≤ 3 := by
  unfold bigEndianToUint32
  split
  · simp; omega
  · split
    · simp; omega
    · simp; omega

/-- **C52** Length-prefixed strings of at most 255 bytes delimit themselves: whatever follows, the string can be told. -/
theorem C52_length_prefix {a b x y : Bytes} (ha : a.length ≤ 255) (hb : b.length ≤ 255)
    (h : Util.lengthPrefixString a ++ x = Util.lengthPrefixString b ++ y) : a = b ∧ x = y := by
  unfold Util.lengthPrefixString at h
  rw [List.cons_append, List.cons_append, List.cons.injEq] at h
  obtain ⟨h1, h2⟩ := h
  have hl : a.length = b.length := by
    have := congrArg UInt8.toNat h1
    rw [UInt8.toNat_ofNat', UInt8.toNat_ofNat'] at this
    omega
  exact List.append_inj h2 hl

/-- **C52** A string of 256 bytes is not told from the empty one followed by its bytes. -/
theorem C52_length_prefix_wraps (s : Bytes) (h : s.length = 256) : Util.lengthPrefixString s = Util.lengthPrefixString [] ++ s := by
  unfold Util.lengthPrefixString
  rw [h]
  rfl

/-- **C52** Test addresses have twenty bytes and are distinct for distinct numbers. -/
theorem C52_test_address {m n : Int} (hm : -2 ^ 63 ≤ m ∧ m < 2 ^ 63) (hn : -2 ^ 63 ≤ n ∧ n < 2 ^ 63) :
    (testAddress n).length = 20 ∧ (testAddress m = testAddress n ↔ m = n) := by
  have hz : ∀ {x : Int}, -2 ^ 63 ≤ x ∧ x < 2 ^ 63 → zigzag x < 2 ^ 64 := by
    intro x hx
    unfold zigzag
    split <;> omega
  refine ⟨?_, ⟨fun h => ?_, fun h => by rw [h]⟩⟩
  · unfold testAddress
    have : (Pb.varint (zigzag n)).length ≤ 10 := by
      have key : ∀ k v, (Pb.varintLoop k v).length ≤ k := by
        intro k
        induction k with
        | zero => intro v; simp [Pb.varintLoop]
        | succ k ih =>
          intro v
          unfold Pb.varintLoop
          split
          · simpa using ih _
          · simp
      exact key 10 _
    simp only [List.length_append, List.length_replicate]
    omega
  · unfold testAddress at h
    have h1 := Pb.read_varint (hz hm) (List.replicate (20 - (Pb.varint (zigzag m)).length) 0)
    have h2 := Pb.read_varint (hz hn) (List.replicate (20 - (Pb.varint (zigzag n)).length) 0)
    simp only at h
    rw [h, h2] at h1
    have e : zigzag n = zigzag m := by
      simp only [Option.some.injEq, Prod.mk.injEq] at h1
      exact h1.1
    unfold zigzag at e
    split at e <;> split at e <;> omega

example : testAddress 1 = [2] ++ List.replicate 19 0 ∧ testAddress (-65) = [129, 1] ++ List.replicate 18 0 ∧
    Util.lengthPrefixString [7, 8] = [2, 7, 8] ∧ uint32ToBigEndian 258 = [0, 0, 1, 2] ∧ bigEndianToUint32 [0, 0, 1, 2, 9] = some 258 := by
  decide +kernel

end Verif.Props

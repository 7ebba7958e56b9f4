import Verif.Spec.Keys
import Mathlib.Tactic.Linarith
import Mathlib.Data.Nat.Digits.Lemmas
/-! # Lemmas about store keys -/
namespace Verif.Dex.Keys
open Verif.Spec.Keys

theorem bigEndian_length (k n : Nat) : (bigEndian k n).length = k := by
  induction k generalizing n with
  | zero => rfl
  | succ k ih => simp [bigEndian, ih]

theorem be64_length (n : UInt64) : (be64 n).length = 8 := bigEndian_length 8 _

theorem bigEndian_lt {k m n : Nat} (hm : m < 256 ^ k) (hn : n < 256 ^ k) : bigEndian k m < bigEndian k n ↔ m < n := by
  induction k generalizing m n with
  | zero => simp [bigEndian]; omega
  | succ k ih =>
    have hp : 0 < 256 ^ k := Nat.pow_pos (by decide)
    have hm' : m / 256 ^ k < 256 := Nat.div_lt_of_lt_mul (by rw [pow_succ] at hm; exact hm)
    have hn' : n / 256 ^ k < 256 := Nat.div_lt_of_lt_mul (by rw [pow_succ] at hn; exact hn)
    have e1 := Nat.div_add_mod m (256 ^ k)
    have e2 := Nat.div_add_mod n (256 ^ k)
    have l1 := Nat.mod_lt m hp
    have l2 := Nat.mod_lt n hp
    rw [bigEndian, bigEndian, List.cons_lt_cons_iff, ih (Nat.mod_lt _ hp) (Nat.mod_lt _ hp), UInt8.lt_iff_toNat_lt, ← UInt8.toNat_inj]
    simp only [UInt8.toNat_ofNat', show (2:Nat)^8 = 256 from rfl]
    rw [Nat.mod_eq_of_lt hm', Nat.mod_eq_of_lt hn']
    constructor
    · rintro (h | ⟨h, h'⟩)
      · have := Nat.mul_le_mul_left (256 ^ k) (Nat.succ_le_of_lt h)
        rw [Nat.mul_succ] at this; omega
      · rw [h] at e1; omega
    · intro h
      rcases Nat.lt_trichotomy (m / 256 ^ k) (n / 256 ^ k) with h' | h' | h'
      · exact Or.inl h'
      · refine Or.inr ⟨h', ?_⟩; rw [h'] at e1; omega
      · have := Nat.mul_le_mul_left (256 ^ k) (Nat.succ_le_of_lt h')
        rw [Nat.mul_succ] at this; omega

theorem be64_lt (m n : UInt64) : be64 m < be64 n ↔ m < n := by
  rw [be64, be64, bigEndian_lt m.toNat_lt n.toNat_lt, UInt64.lt_iff_toNat_lt]

theorem be64_inj {m n : UInt64} : be64 m = be64 n ↔ m = n := by
  constructor
  · intro h
    have h1 : ¬ m < n := by rw [← be64_lt, h]; exact List.lt_irrefl _
    have h2 : ¬ n < m := by rw [← be64_lt, h]; exact List.lt_irrefl _
    rw [UInt64.lt_iff_toNat_lt] at h1 h2
    exact UInt64.toNat_inj.1 (by omega)
  · rintro rfl; rfl

theorem foldl_be (l : Bytes) (a : Nat) :
    l.foldl (fun acc b => acc * 256 + b.toNat) a = a * 256 ^ l.length + fromBigEndian l := by
  unfold fromBigEndian
  induction l generalizing a with
  | nil => simp
  | cons b l ih =>
    simp only [List.foldl_cons, List.length_cons]
    rw [ih, ih (0 * 256 + b.toNat)]
    ring

theorem fromBigEndian_bigEndian {k n : Nat} (hn : n < 256 ^ k) : fromBigEndian (bigEndian k n) = n := by
  induction k generalizing n with
  | zero => simp at hn; subst hn; rfl
  | succ k ih =>
    have hp : 0 < 256 ^ k := Nat.pow_pos (by decide)
    have hn' : n / 256 ^ k < 256 := Nat.div_lt_of_lt_mul (by rw [pow_succ] at hn; exact hn)
    rw [bigEndian, fromBigEndian, List.foldl_cons, foldl_be, ih (Nat.mod_lt _ hp), bigEndian_length, UInt8.toNat_ofNat',
      show (2:Nat)^8 = 256 from rfl, Nat.mod_eq_of_lt hn', Nat.zero_mul, Nat.zero_add, Nat.mul_comm]
    exact Nat.div_add_mod n _

theorem toUint64_be64 (n : UInt64) : toUint64 (be64 n) = some n := by
  unfold toUint64
  rw [be64_length, if_neg (by decide), if_neg (by decide), List.take_of_length_le (by rw [be64_length])]
  rw [be64, fromBigEndian_bigEndian n.toNat_lt, UInt64.ofNat_toNat]

theorem toUint64_be64_append (n : UInt64) (l : Bytes) : toUint64 (be64 n ++ l) = some n := by
  unfold toUint64
  rw [if_neg (by simp [be64_length]), if_neg (by simp [be64_length])]
  rw [List.take_append_of_le_length (by rw [be64_length]), List.take_of_length_le (by rw [be64_length])]
  rw [be64, fromBigEndian_bigEndian n.toNat_lt, UInt64.ofNat_toNat]

/-! ## Order -/

theorem append_lt_append (p : Bytes) (a b : Bytes) : p ++ a < p ++ b ↔ a < b := by
  induction p with
  | nil => rfl
  | cons x p ih =>
    simp only [List.cons_append, List.cons_lt_cons_iff, ih]
    constructor
    · rintro (h | ⟨_, h⟩)
      · rw [UInt8.lt_iff_toNat_lt] at h; omega
      · exact h
    · intro h; exact Or.inr ⟨trivial, h⟩

theorem lt_append_of_length {a b c d : Bytes} (h : a.length = b.length) : a ++ c < b ++ d ↔ a < b ∨ a = b ∧ c < d := by
  induction a generalizing b with
  | nil =>
    cases b with
    | nil => simp
    | cons y b => simp at h
  | cons x a ih =>
    cases b with
    | nil => simp at h
    | cons y b =>
      simp only [List.cons_append, List.cons_lt_cons_iff, List.cons.injEq]
      rw [ih (by simpa using h)]
      tauto

theorem be64_pair_lt (a b c d : UInt64) : be64 a ++ be64 b < be64 c ++ be64 d ↔ a < c ∨ a = c ∧ b < d := by
  rw [lt_append_of_length (by rw [be64_length, be64_length]), be64_lt, be64_lt, be64_inj]

/-! ## Length-prefixed parts -/

theorem lps (h : Name a) : lengthPrefixString a = UInt8.ofNat a.length :: a := by
  unfold lengthPrefixString; rw [if_neg (by have := h.1; omega)]

theorem mlp (h : Name a) : mustLengthPrefix a = some (UInt8.ofNat a.length :: a) := by
  unfold mustLengthPrefix; rw [if_neg (by have := h.1; omega), if_neg (by have := h.2; omega)]

theorem len_inj {a b : Bytes} (ha : Name a) (hb : Name b) (h : UInt8.ofNat a.length = UInt8.ofNat b.length) : a.length = b.length := by
  have := congrArg UInt8.toNat h
  simp only [UInt8.toNat_ofNat', show (2:Nat)^8 = 256 from rfl] at this
  rw [Nat.mod_eq_of_lt (by have := ha.2; omega), Nat.mod_eq_of_lt (by have := hb.2; omega)] at this
  exact this

/-- A length-prefixed part followed by anything determines the part and the rest. -/
theorem part_inj {a b : Bytes} (ha : Name a) (hb : Name b) {c d : Bytes} :
    UInt8.ofNat a.length :: (a ++ c) = UInt8.ofNat b.length :: (b ++ d) ↔ a = b ∧ c = d := by
  constructor
  · intro h
    have h := List.cons.inj h
    exact List.append_inj h.2 (len_inj ha hb h.1)
  · rintro ⟨rfl, rfl⟩; rfl

theorem part_prefix {a b : Bytes} (ha : Name a) (hb : Name b) {c d : Bytes} :
    UInt8.ofNat a.length :: (a ++ c) <+: UInt8.ofNat b.length :: (b ++ d) ↔ a = b ∧ c <+: d := by
  rw [List.cons_prefix_cons]
  constructor
  · rintro ⟨h1, t, ht⟩
    rw [List.append_assoc] at ht
    obtain ⟨h, h'⟩ := List.append_inj ht (len_inj ha hb h1)
    exact ⟨h, t, h'⟩
  · rintro ⟨rfl, h⟩
    exact ⟨rfl, (List.prefix_append_right_inj _).2 h⟩

theorem be_prefix {a b : UInt64} {c d : Bytes} : be64 a ++ c <+: be64 b ++ d ↔ a = b ∧ c <+: d := by
  constructor
  · rintro ⟨t, ht⟩
    rw [List.append_assoc] at ht
    obtain ⟨h, h'⟩ := List.append_inj ht (by rw [be64_length, be64_length])
    exact ⟨be64_inj.1 h, t, h'⟩
  · rintro ⟨rfl, h⟩
    exact (List.prefix_append_right_inj _).2 h

theorem be_inj {a b : UInt64} {c d : Bytes} : be64 a ++ c = be64 b ++ d ↔ a = b ∧ c = d := by
  constructor
  · intro h
    obtain ⟨h, h'⟩ := List.append_inj h (by rw [be64_length, be64_length])
    exact ⟨be64_inj.1 h, h'⟩
  · rintro ⟨rfl, rfl⟩; rfl

end Verif.Dex.Keys

namespace Verif.Dex.Keys
open Verif.Spec.Keys

/-- First byte of the key of an entity. -/
def tag : Entity → UInt8
  | .params => 0x70 | .lastPairId => 0xa0 | .lastPoolId => 0xa1 | .pair _ => 0xa5 | .pairIndex _ _ => 0xa6
  | .pairByDenoms _ _ _ => 0xa7 | .pool _ => 0xab | .poolByReserve _ => 0xac | .poolByPair _ _ => 0xad | .deposit _ _ => 0xb0
  | .depositIndex _ _ _ => 0xb4 | .withdraw _ _ => 0xb1 | .withdrawIndex _ _ _ => 0xb5 | .order _ _ => 0xb2
  | .orderIndex _ _ _ => 0xb3 | .numMM _ _ => 0xb7

/-- A length-prefixed part followed by more bytes. -/
def part (a c : Bytes) : Bytes := UInt8.ofNat a.length :: (a ++ c)

/-- The other bytes of the key of an entity. -/
def rest : Entity → Bytes
  | .params => [0x5f, 0x64, 0x65, 0x78]
  | .lastPairId => []
  | .lastPoolId => []
  | .pair id => be64 id ++ []
  | .pairIndex a b => part a (part b [])
  | .pairByDenoms a b id => part a (part b (be64 id ++ []))
  | .pool id => be64 id ++ []
  | .poolByReserve a => part a []
  | .poolByPair p q => be64 p ++ (be64 q ++ [])
  | .deposit p q => be64 p ++ (be64 q ++ [])
  | .depositIndex a p q => part a (be64 p ++ (be64 q ++ []))
  | .withdraw p q => be64 p ++ (be64 q ++ [])
  | .withdrawIndex a p q => part a (be64 p ++ (be64 q ++ []))
  | .order p q => be64 p ++ (be64 q ++ [])
  | .orderIndex a p q => part a (be64 p ++ (be64 q ++ []))
  | .numMM a p => part a (be64 p ++ [])

theorem keyOf_shape {e : Entity} (h : e.WellFormed) : keyOf e = some (tag e :: rest e) := by
  cases e <;> simp only [Entity.WellFormed] at h <;>
    simp [keyOf, tag, rest, part, paramsKey, lastPairIdKey, lastPoolIdKey, getPairKey, pairKeyPrefix, getPairIndexKey, pairIndexKeyPrefix,
      getPairsByDenomsIndexKey, pairsByDenomsIndexKeyPrefix, getPoolKey, poolKeyPrefix, poolByReserveAddressIndexKeyPrefix,
      getPoolsByPairIndexKey, poolsByPairIndexKeyPrefix, getDepositRequestKey, depositRequestKeyPrefix, depositRequestIndexKeyPrefix,
      getWithdrawRequestKey, withdrawRequestKeyPrefix, withdrawRequestIndexKeyPrefix, getOrderKey, orderKeyPrefix,
      orderIndexKeyPrefix, numMMOrdersKeyPrefix, getPoolByReserveAddressIndexKey, getDepositRequestIndexKey,
      getWithdrawRequestIndexKey, getOrderIndexKey, getNumMMOrdersKey, h, lps, mlp]

theorem part_inj' {a b c d : Bytes} (ha : Name a) (hb : Name b) : part a c = part b d ↔ a = b ∧ c = d := part_inj ha hb

theorem part_prefix' {a b c d : Bytes} (ha : Name a) (hb : Name b) : part a c <+: part b d ↔ a = b ∧ c <+: d := part_prefix ha hb

theorem rest_inj {e e' : Entity} (h : e.WellFormed) (h' : e'.WellFormed) (ht : tag e = tag e') (hr : rest e = rest e') : e = e' := by
  cases e <;> cases e' <;> first
    | (exfalso; simp only [tag] at ht; exact absurd ht (by decide))
    | (simp only [Entity.WellFormed] at h h'
       simp only [rest, be_inj, h, h', part_inj', and_true, true_and] at hr
       simp [hr])

end Verif.Dex.Keys

namespace Verif.Dex.Keys

theorem slice_to_end {key a b : Bytes} {n : Nat} (hk : key = a ++ b) (hn : n = a.length) : slice key n key.length = some b := by
  subst hk hn
  unfold slice
  rw [if_pos (by simp)]
  simp

theorem slice_mid {key a b c : Bytes} {n m : Nat} (hk : key = a ++ (b ++ c)) (hn : n = a.length) (hm : m = a.length + b.length) :
    slice key n m = some b := by
  subst hk hn hm
  unfold slice
  rw [if_pos (by simp)]
  simp

theorem two_add {a : Bytes} (h : a.length ≤ 245) : (2 + UInt8.ofNat a.length).toNat = 2 + a.length := by
  rw [UInt8.toNat_add, UInt8.toNat_ofNat']
  show (2 + _) % 256 = _
  omega

theorem parse_aii (t : UInt8) (a : Bytes) (i j : UInt64) (h : a.length ≤ 245) :
    parseAddrIdId (t :: (UInt8.ofNat a.length :: a) ++ be64 i ++ be64 j) = some (a, i, j) := by
  have e2 := two_add h
  have e3 : (2 + UInt8.ofNat a.length + 8).toNat = 10 + a.length := by
    rw [UInt8.toNat_add, e2]
    show (_ + 8) % 256 = _
    omega
  have hla : (t :: (UInt8.ofNat a.length :: a) ++ be64 i ++ be64 j : Bytes)[1]? = some (UInt8.ofNat a.length) := rfl
  unfold parseAddrIdId
  rw [hla]
  simp only [Option.bind_eq_bind, Option.bind_some]
  rw [e3, e2, slice_mid (a := [t, UInt8.ofNat a.length]) (b := a) (c := be64 i ++ be64 j) (by simp) (by simp) (by simp; try omega)]
  simp only [Option.bind_some]
  rw [slice_mid (a := t :: UInt8.ofNat a.length :: a) (b := be64 i) (c := be64 j) (by simp) (by simp; omega) (by simp [be64_length]; omega)]
  simp only [Option.bind_some]
  rw [slice_to_end (a := t :: UInt8.ofNat a.length :: a ++ be64 i) (b := be64 j) (by simp) (by simp [be64_length]; omega)]
  simp [toUint64_be64]

end Verif.Dex.Keys

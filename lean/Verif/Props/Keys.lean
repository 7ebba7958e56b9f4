import Verif.Spec.Keys
import Verif.Proofs.Keys
import Verif.Proofs.KeysDenom
/-!
# C32 store keys, C33 parsing of index keys, C34 pool coin denoms
-/
namespace Verif.Props
open Verif.Dex.Keys Verif.Spec.Keys

/-! ## C32: different entities have different keys, keys sort by id, prefix scans find exactly their entries -/

/-- Every entity with proper denoms and addresses has a key. -/
theorem C32_key_defined (e : Entity) (h : e.WellFormed) : ∃ k, keyOf e = some k := ⟨_, keyOf_shape h⟩

/-- Two different entities never share a store key. -/
theorem C32_no_collision (e e' : Entity) (k : Bytes) (h : e.WellFormed) (h' : e'.WellFormed)
    (hk : keyOf e = some k) (hk' : keyOf e' = some k) : e = e' := by
  rw [keyOf_shape h] at hk
  rw [keyOf_shape h', ← hk] at hk'
  have := List.cons.inj (Option.some.inj hk')
  exact rest_inj h h' this.1.symm this.2.symm

example : (Entity.depositIndex [1, 2] 7 8).WellFormed ∧ (Entity.orderIndex [1, 2] 7 8).WellFormed ∧
    keyOf (.orderIndex [1, 2] 7 8) = some ([0xb3, 2, 1, 2] ++ [0, 0, 0, 0, 0, 0, 0, 7] ++ [0, 0, 0, 0, 0, 0, 0, 8]) := by
  refine ⟨by simp [Entity.WellFormed, Name], by simp [Entity.WellFormed, Name], by decide⟩

/-- Byte order of keys is numeric order of ids: iteration over pairs and pools is by id, over requests and orders by pool or
pair and then by id, and within one address by the two ids. -/
theorem C32_order (a b c d : UInt64) (addr : Bytes) :
    (getPairKey a < getPairKey b ↔ a < b) ∧ (getPoolKey a < getPoolKey b ↔ a < b) ∧
    (getPoolsByPairIndexKey a b < getPoolsByPairIndexKey c d ↔ a < c ∨ a = c ∧ b < d) ∧
    (getDepositRequestKey a b < getDepositRequestKey c d ↔ a < c ∨ a = c ∧ b < d) ∧
    (getWithdrawRequestKey a b < getWithdrawRequestKey c d ↔ a < c ∨ a = c ∧ b < d) ∧
    (getOrderKey a b < getOrderKey c d ↔ a < c ∨ a = c ∧ b < d) ∧
    (∀ k k', getDepositRequestIndexKey addr a b = some k → getDepositRequestIndexKey addr c d = some k' →
      (k < k' ↔ a < c ∨ a = c ∧ b < d)) ∧
    (∀ k k', getWithdrawRequestIndexKey addr a b = some k → getWithdrawRequestIndexKey addr c d = some k' →
      (k < k' ↔ a < c ∨ a = c ∧ b < d)) ∧
    (∀ k k', getOrderIndexKey addr a b = some k → getOrderIndexKey addr c d = some k' → (k < k' ↔ a < c ∨ a = c ∧ b < d)) ∧
    (∀ k k', getNumMMOrdersKey addr a = some k → getNumMMOrdersKey addr b = some k' → (k < k' ↔ a < b)) := by
  have idx : ∀ (p : Bytes) (k k' : Bytes), (mustLengthPrefix addr).map (fun l => p ++ l ++ be64 a ++ be64 b) = some k →
      (mustLengthPrefix addr).map (fun l => p ++ l ++ be64 c ++ be64 d) = some k' → (k < k' ↔ a < c ∨ a = c ∧ b < d) := by
    intro p k k' h h'
    cases hl : mustLengthPrefix addr with
    | none => rw [hl] at h; cases h
    | some l =>
      rw [hl] at h h'
      have h := Option.some.inj h
      have h' := Option.some.inj h'
      rw [← h, ← h']
      show (p ++ l) ++ be64 a ++ be64 b < (p ++ l) ++ be64 c ++ be64 d ↔ _
      rw [List.append_assoc, List.append_assoc (p ++ l), append_lt_append, be64_pair_lt]
  refine ⟨?_, ?_, ?_, ?_, ?_, ?_, idx _, idx _, idx _, ?_⟩
  · rw [getPairKey, getPairKey, append_lt_append, be64_lt]
  · rw [getPoolKey, getPoolKey, append_lt_append, be64_lt]
  · rw [getPoolsByPairIndexKey, getPoolsByPairIndexKey, List.append_assoc, List.append_assoc, append_lt_append, be64_pair_lt]
  · rw [getDepositRequestKey, getDepositRequestKey, List.append_assoc, List.append_assoc, append_lt_append, be64_pair_lt]
  · rw [getWithdrawRequestKey, getWithdrawRequestKey, List.append_assoc, List.append_assoc, append_lt_append, be64_pair_lt]
  · rw [getOrderKey, getOrderKey, List.append_assoc, List.append_assoc, append_lt_append, be64_pair_lt]
  · intro k k' h h'
    unfold getNumMMOrdersKey at h h'
    cases hl : mustLengthPrefix addr with
    | none => rw [hl] at h; cases h
    | some l =>
      rw [hl] at h h'
      have h := Option.some.inj h
      have h' := Option.some.inj h'
      rw [← h, ← h', append_lt_append, be64_lt]

example : getOrderKey 1 300 < getOrderKey 2 5 ∧ getOrderKey 2 5 < getOrderKey 2 300 := by decide

/-- The scans of the store over all entities of one kind (`IterateAllPairs` etc.) find exactly the entities of that kind. -/
theorem C32_scan_kind :
    ScanFinds pairKeyPrefix (fun e => ∃ i, e = .pair i) ∧
    ScanFinds poolKeyPrefix (fun e => ∃ i, e = .pool i) ∧
    ScanFinds depositRequestKeyPrefix (fun e => ∃ p i, e = .deposit p i) ∧
    ScanFinds withdrawRequestKeyPrefix (fun e => ∃ p i, e = .withdraw p i) ∧
    ScanFinds orderKeyPrefix (fun e => ∃ p i, e = .order p i) ∧
    ScanFinds numMMOrdersKeyPrefix (fun e => ∃ a p, e = .numMM a p) := by
  refine ⟨?_, ?_, ?_, ?_, ?_, ?_⟩ <;>
  · intro e k h hk
    rw [keyOf_shape h] at hk
    have hk := Option.some.inj hk
    rw [← hk]
    simp only [pairKeyPrefix, poolKeyPrefix, depositRequestKeyPrefix, withdrawRequestKeyPrefix, orderKeyPrefix, numMMOrdersKeyPrefix,
      List.cons_prefix_cons, List.nil_prefix, and_true]
    cases e <;> simp [tag]

/-- The scans for one pair, one denom, two denoms or one address find exactly the entries of that pair, denom or address. -/
theorem C32_scan_one (p : UInt64) (a b : Bytes) (ha : Name a) (hb : Name b) :
    ScanFinds (getPoolsByPairIndexKeyPrefix p) (fun e => ∃ i, e = .poolByPair p i) ∧
    ScanFinds (getOrdersByPairKeyPrefix p) (fun e => ∃ i, e = .order p i) ∧
    ScanFinds (getPairsByDenomIndexKeyPrefix a) (fun e => ∃ c i, e = .pairByDenoms a c i) ∧
    ScanFinds (getPairsByDenomsIndexKeyPrefix a b) (fun e => ∃ i, e = .pairByDenoms a b i) ∧
    (∃ q, getDepositRequestIndexKeyPrefix a = some q ∧ ScanFinds q (fun e => ∃ j i, e = .depositIndex a j i)) ∧
    (∃ q, getWithdrawRequestIndexKeyPrefix a = some q ∧ ScanFinds q (fun e => ∃ j i, e = .withdrawIndex a j i)) ∧
    (∃ q, getOrderIndexKeyPrefix a = some q ∧ ScanFinds q (fun e => ∃ j i, e = .orderIndex a j i)) := by
  have key : ∀ (pre : Bytes) (t : UInt8) (r : Bytes) (P : Entity → Prop), pre = t :: r →
      (∀ e : Entity, e.WellFormed → ((t = tag e ∧ r <+: rest e) ↔ P e)) → ScanFinds pre P := by
    intro pre t r P hp hP e k h hk
    rw [keyOf_shape h] at hk
    have hk := Option.some.inj hk
    rw [← hk, hp, List.cons_prefix_cons, hP e h]
  refine ⟨?_, ?_, ?_, ?_, ⟨_, by rw [getDepositRequestIndexKeyPrefix, mlp ha]; rfl, ?_⟩,
    ⟨_, by rw [getWithdrawRequestIndexKeyPrefix, mlp ha]; rfl, ?_⟩, ⟨_, by rw [getOrderIndexKeyPrefix, mlp ha]; rfl, ?_⟩⟩
  · refine key _ 0xad (be64 p ++ []) _ (by simp [getPoolsByPairIndexKeyPrefix, poolsByPairIndexKeyPrefix]) (fun e he => ?_)
    cases e <;> simp [tag] <;> (rw [show be64 p = be64 p ++ [] by simp, rest, be_prefix]; simp [eq_comm])
  · refine key _ 0xb2 (be64 p ++ []) _ (by simp [getOrdersByPairKeyPrefix, orderKeyPrefix]) (fun e he => ?_)
    cases e <;> simp [tag] <;> (rw [show be64 p = be64 p ++ [] by simp, rest, be_prefix]; simp [eq_comm])
  · refine key _ 0xa7 (part a []) _ (by simp [getPairsByDenomIndexKeyPrefix, pairsByDenomsIndexKeyPrefix, lps ha, part]) (fun e he => ?_)
    cases e <;> simp [tag] <;> (simp only [Entity.WellFormed] at he; rw [rest, part_prefix' ha he.1]; simp [eq_comm])
  · refine key _ 0xa7 (part a (part b [])) _ (by simp [getPairsByDenomsIndexKeyPrefix, pairsByDenomsIndexKeyPrefix, lps ha, lps hb, part]) (fun e he => ?_)
    cases e <;> simp [tag] <;> (simp only [Entity.WellFormed] at he; rw [rest, part_prefix' ha he.1, part_prefix' hb he.2]; simp [eq_comm])
  · refine key _ 0xb4 (part a []) _ (by simp [depositRequestIndexKeyPrefix, part]) (fun e he => ?_)
    cases e <;> simp [tag] <;> (simp only [Entity.WellFormed] at he; rw [rest, part_prefix' ha he]; simp [eq_comm])
  · refine key _ 0xb5 (part a []) _ (by simp [withdrawRequestIndexKeyPrefix, part]) (fun e he => ?_)
    cases e <;> simp [tag] <;> (simp only [Entity.WellFormed] at he; rw [rest, part_prefix' ha he]; simp [eq_comm])
  · refine key _ 0xb3 (part a []) _ (by simp [orderIndexKeyPrefix, part]) (fun e he => ?_)
    cases e <;> simp [tag] <;> (simp only [Entity.WellFormed] at he; rw [rest, part_prefix' ha he]; simp [eq_comm])

example : Name [0x73, 0x74, 0x61, 0x6b, 0x65] := by simp [Name]

/-! ## C33: index keys parse back -/

/-- Parsing a pools-by-pair index key returns its pool id, for all ids. -/
theorem C33_pools_by_pair (pairId poolId : UInt64) :
    parsePoolsByPairIndexKey (getPoolsByPairIndexKey pairId poolId) = some poolId := by
  unfold parsePoolsByPairIndexKey
  rw [if_neg (by simp [getPoolsByPairIndexKey])]
  rw [slice_to_end (a := poolsByPairIndexKeyPrefix ++ be64 pairId) (b := be64 poolId) (by rfl)
    (by simp [poolsByPairIndexKeyPrefix, be64_length])]
  exact toUint64_be64 _

/-- Parsing a deposit, withdraw or order index key, or a market making order counter key, returns the address and the ids,
for all ids and all addresses of 1 to 245 bytes (the addresses of the SDK have 20 or 32 bytes). -/
theorem C33_address_keys (addr : Bytes) (i j : UInt64) (h1 : 1 ≤ addr.length) (h2 : addr.length ≤ 245) :
    (getDepositRequestIndexKey addr i j).bind parseDepositRequestIndexKey = some (addr, i, j) ∧
    (getWithdrawRequestIndexKey addr i j).bind parseWithdrawRequestIndexKey = some (addr, i, j) ∧
    (getOrderIndexKey addr i j).bind parseOrderIndexKey = some (addr, i, j) ∧
    (getNumMMOrdersKey addr i).bind parseNumMMOrdersKey = some (addr, i) := by
  have hn : Name addr := ⟨h1, by omega⟩
  refine ⟨?_, ?_, ?_, ?_⟩
  · rw [getDepositRequestIndexKey, mlp hn]
    show parseDepositRequestIndexKey (_ :: (UInt8.ofNat addr.length :: addr) ++ be64 i ++ be64 j) = _
    rw [parseDepositRequestIndexKey, if_neg (by simp [depositRequestIndexKeyPrefix]), parse_aii _ _ _ _ h2]
  · rw [getWithdrawRequestIndexKey, mlp hn]
    show parseWithdrawRequestIndexKey (_ :: (UInt8.ofNat addr.length :: addr) ++ be64 i ++ be64 j) = _
    rw [parseWithdrawRequestIndexKey, if_neg (by simp [withdrawRequestIndexKeyPrefix]), parse_aii _ _ _ _ h2]
  · rw [getOrderIndexKey, mlp hn]
    show parseOrderIndexKey (_ :: (UInt8.ofNat addr.length :: addr) ++ be64 i ++ be64 j) = _
    rw [parseOrderIndexKey, if_neg (by simp [orderIndexKeyPrefix]), parse_aii _ _ _ _ h2]
  · rw [getNumMMOrdersKey, mlp hn]
    show parseNumMMOrdersKey (_ :: (UInt8.ofNat addr.length :: addr) ++ be64 i) = _
    rw [parseNumMMOrdersKey, if_neg (by simp [numMMOrdersKeyPrefix])]
    have e2 := two_add h2
    simp only [Option.bind_eq_bind, List.cons_append, List.getElem?_cons_succ, List.getElem?_cons_zero, Option.bind_some]
    rw [e2, slice_mid (a := [numMMOrdersKeyPrefix.headD 0, UInt8.ofNat addr.length]) (b := addr) (c := be64 i) (by rfl) (by simp) (by simp; try omega)]
    simp only [Option.bind_some]
    rw [slice_to_end (a := numMMOrdersKeyPrefix.headD 0 :: UInt8.ofNat addr.length :: addr) (b := be64 i) (by rfl) (by simp; omega)]
    simp [toUint64_be64]

example : (1 ≤ (List.replicate 20 (7 : UInt8)).length) ∧ (List.replicate 20 (7 : UInt8)).length ≤ 245 := by decide

/-- The part of the claim about pairs-by-denoms keys that holds: for denoms whose lengths add up to at most 252, parsing
returns the two denoms and the pair id.  Missing: longer denoms, for which the claim is false, see
`C33_pairs_by_denoms_fails`. -/
theorem C33_pairs_by_denoms_partial (a b : Bytes) (id : UInt64) (ha : Name a) (hb : Name b) (hl : a.length + b.length ≤ 252) :
    parsePairsByDenomsIndexKey (getPairsByDenomsIndexKey a b id) = some (a, b, id) := by
  rw [getPairsByDenomsIndexKey, lps ha, lps hb]
  show parsePairsByDenomsIndexKey (0xa7 :: (UInt8.ofNat a.length :: a) ++ (UInt8.ofNat b.length :: b) ++ be64 id) = _
  rw [parsePairsByDenomsIndexKey, if_neg (by simp [pairsByDenomsIndexKeyPrefix])]
  have e2 : (2 + UInt8.ofNat a.length).toNat = 2 + a.length := by
    rw [UInt8.toNat_add, UInt8.toNat_ofNat']
    show (2 + _) % 256 = _
    have := hb.1
    omega
  have e3 : (3 + UInt8.ofNat a.length).toNat = 3 + a.length := by
    rw [UInt8.toNat_add, UInt8.toNat_ofNat']
    show (3 + _) % 256 = _
    have := hb.1
    omega
  have e4 : (3 + UInt8.ofNat a.length + UInt8.ofNat b.length).toNat = 3 + a.length + b.length := by
    rw [UInt8.toNat_add, UInt8.toNat_ofNat', e3]
    show (_ + _) % 256 = _
    omega
  have hlb : (0xa7 :: (UInt8.ofNat a.length :: a) ++ (UInt8.ofNat b.length :: b) ++ be64 id)[2 + a.length]? = some (UInt8.ofNat b.length) := by
    rw [show (0xa7 :: (UInt8.ofNat a.length :: a) ++ (UInt8.ofNat b.length :: b) ++ be64 id : Bytes) =
      (0xa7 :: UInt8.ofNat a.length :: a) ++ (UInt8.ofNat b.length :: (b ++ be64 id)) by simp]
    rw [List.getElem?_append_right (by simp; omega)]
    simp only [List.length_cons]
    rw [show 2 + a.length - (a.length + 1 + 1) = 0 by omega]
    rfl
  have hla : (0xa7 :: (UInt8.ofNat a.length :: a) ++ (UInt8.ofNat b.length :: b) ++ be64 id : Bytes)[1]? = some (UInt8.ofNat a.length) := rfl
  rw [hla]
  simp only [Option.bind_eq_bind, Option.bind_some]
  rw [e2, slice_mid (a := [0xa7, UInt8.ofNat a.length]) (b := a) (c := (UInt8.ofNat b.length :: b) ++ be64 id) (by simp) (by simp) (by simp; try omega)]
  simp only [Option.bind_some]
  rw [hlb]
  simp only [Option.bind_some]
  rw [e4, e3, slice_mid (a := 0xa7 :: UInt8.ofNat a.length :: a ++ [UInt8.ofNat b.length]) (b := b) (c := be64 id) (by simp) (by simp; omega) (by simp; omega)]
  simp only [Option.bind_some]
  rw [slice_to_end (a := 0xa7 :: UInt8.ofNat a.length :: a ++ UInt8.ofNat b.length :: b) (b := be64 id) (by simp) (by simp; omega)]
  simp [toUint64_be64]

example : ∃ a b : Bytes, Name a ∧ Name b ∧ a.length + b.length ≤ 252 ∧ a ≠ b := ⟨[1, 2, 3], [4, 5, 6, 7], by simp [Name]⟩

/-- The claim is false for pairs-by-denoms keys: for all denoms of at most 128 bytes (the longest the SDK accepts) whose
lengths add up to 253 or more, parsing the key panics. -/
theorem C33_pairs_by_denoms_fails (a b : Bytes) (id : UInt64) (ha : Name a) (hb : Name b) (ha' : a.length ≤ 128)
    (hb' : b.length ≤ 128) (hl : 253 ≤ a.length + b.length) :
    parsePairsByDenomsIndexKey (getPairsByDenomsIndexKey a b id) = none := by
  rw [getPairsByDenomsIndexKey, lps ha, lps hb]
  show parsePairsByDenomsIndexKey (0xa7 :: (UInt8.ofNat a.length :: a) ++ (UInt8.ofNat b.length :: b) ++ be64 id) = _
  rw [parsePairsByDenomsIndexKey, if_neg (by simp [pairsByDenomsIndexKeyPrefix])]
  have e2 : (2 + UInt8.ofNat a.length).toNat = 2 + a.length := by
    rw [UInt8.toNat_add, UInt8.toNat_ofNat']
    show (2 + _) % 256 = _
    omega
  have e3 : (3 + UInt8.ofNat a.length).toNat = 3 + a.length := by
    rw [UInt8.toNat_add, UInt8.toNat_ofNat']
    show (3 + _) % 256 = _
    omega
  have e4 : (3 + UInt8.ofNat a.length + UInt8.ofNat b.length).toNat ≤ 3 := by
    rw [UInt8.toNat_add, UInt8.toNat_ofNat', e3]
    show (_ + _) % 256 ≤ _
    omega
  have hlb : (0xa7 :: (UInt8.ofNat a.length :: a) ++ (UInt8.ofNat b.length :: b) ++ be64 id)[2 + a.length]? = some (UInt8.ofNat b.length) := by
    rw [show (0xa7 :: (UInt8.ofNat a.length :: a) ++ (UInt8.ofNat b.length :: b) ++ be64 id : Bytes) =
      (0xa7 :: UInt8.ofNat a.length :: a) ++ (UInt8.ofNat b.length :: (b ++ be64 id)) by simp]
    rw [List.getElem?_append_right (by simp; omega)]
    simp only [List.length_cons]
    rw [show 2 + a.length - (a.length + 1 + 1) = 0 by omega]
    rfl
  have hla : (0xa7 :: (UInt8.ofNat a.length :: a) ++ (UInt8.ofNat b.length :: b) ++ be64 id : Bytes)[1]? = some (UInt8.ofNat a.length) := rfl
  rw [hla]
  simp only [Option.bind_eq_bind, Option.bind_some]
  rw [e2, slice_mid (a := [0xa7, UInt8.ofNat a.length]) (b := a) (c := (UInt8.ofNat b.length :: b) ++ be64 id) (by simp) (by simp) (by simp; try omega)]
  simp only [Option.bind_some]
  rw [hlb]
  simp only [Option.bind_some]
  rw [e3, slice, if_neg (by omega)]
  rfl

example : ∃ a b : Bytes, Name a ∧ Name b ∧ a.length ≤ 128 ∧ b.length ≤ 128 ∧ 253 ≤ a.length + b.length :=
  ⟨List.replicate 128 0x61, List.replicate 125 0x62, by simp [Name]⟩

/-! ## C34: pool coin denoms -/

/-- A string parses to a pool id exactly if the id is positive and the string is its pool coin denom: different pools have
different pool coins, and no other string is accepted. -/
theorem C34_parse_iff (s : List Char) (id : UInt64) : parsePoolCoinDenom s = some id ↔ 0 < id ∧ s = poolCoinDenom id := by
  constructor
  · intro h
    unfold parsePoolCoinDenom at h
    split at h
    · rename_i c cs
      split at h
      · rename_i hc
        obtain ⟨h1, h2, h3⟩ := hc
        have h3 : ∀ d ∈ cs, IsDigit d := by simpa [IsDigit] using h3
        simp only at h
        split at h
        · rename_i hv
          have h := Option.some.inj h
          have e : id.toNat = decimal (c :: cs) := by
            rw [← h, UInt64.toNat_ofNat', Nat.mod_eq_of_lt hv]
          refine ⟨UInt64.lt_iff_toNat_lt.2 (by rw [e]; exact decimal_pos c cs h1), ?_⟩
          rw [poolCoinDenom, e, digits_decimal h1 h2 h3]
          rfl
        · cases h
      · cases h
    · cases h
  · rintro ⟨h, rfl⟩
    obtain ⟨c, cs, e, h1, h2⟩ := digits_head (n := id.toNat) (UInt64.lt_iff_toNat_lt.1 h)
    have hd : decimal (c :: cs) = id.toNat := by rw [← e, decimal_digits]
    have h3 : ∀ d ∈ cs, IsDigit d := fun d hd => digits_isDigit id.toNat d (by rw [e]; simp [hd])
    rw [poolCoinDenom, e]
    show (if _ then (if decimal (c :: cs) < 2 ^ 64 then some (UInt64.ofNat (decimal (c :: cs))) else none) else none) = _
    rw [if_pos ⟨h1, h2, by simpa [IsDigit] using h3⟩, hd, if_pos id.toNat_lt, UInt64.ofNat_toNat]

/-- Pool coin denoms are different for different pools. -/
theorem C34_injective (a b : UInt64) (h : poolCoinDenom a = poolCoinDenom b) : a = b := by
  unfold poolCoinDenom at h
  have h := List.append_cancel_left h
  have := congrArg decimal h
  rw [decimal_digits, decimal_digits] at this
  exact UInt64.toNat_inj.1 this

example : poolCoinDenom 120 = "pool120".toList ∧ parsePoolCoinDenom "pool120".toList = some 120 ∧
    parsePoolCoinDenom "pool012".toList = none ∧ parsePoolCoinDenom "pool18446744073709551616".toList = none := by
  refine ⟨by decide +kernel, by decide +kernel, by decide +kernel, by decide +kernel⟩

end Verif.Props

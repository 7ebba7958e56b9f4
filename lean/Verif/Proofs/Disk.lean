import Verif.Proofs.Rep
import Verif.Proofs.Store
/-! # What the byte store contains along a history -/
namespace Verif.Dex.KV
open Verif Verif.Dex Verif.Dex.Keys Verif.Spec.Keys Verif.Spec

/-- What the records say must be in the byte store. -/
def Holds (enc : Enc) (s : State) : Entity → Val → Prop
  | .params, _ => False
  | .lastPairId, v => s.lastPairId ≠ 0 ∧ v = .id (u64 s.lastPairId)
  | .lastPoolId, v => s.lastPoolId ≠ 0 ∧ v = .id (u64 s.lastPoolId)
  | .pair i, v => ∃ p ∈ s.pairs, u64 p.id = i ∧ v = .pair p
  | .pairIndex a b, v => ∃ p ∈ s.pairs, enc.denom p.base = a ∧ enc.denom p.quote = b ∧ v = .id (u64 p.id)
  | .pairByDenoms a b i, v => v = .empty ∧ ∃ p ∈ s.pairs, u64 p.id = i ∧
      ((enc.denom p.base = a ∧ enc.denom p.quote = b) ∨ (enc.denom p.quote = a ∧ enc.denom p.base = b))
  | .pool i, v => ∃ p ∈ s.pools, u64 p.id = i ∧ v = .pool p
  | .poolByReserve a, v => ∃ p ∈ s.pools, enc.addr (.poolReserve p.id) = a ∧ v = .id (u64 p.id)
  | .poolByPair i j, v => v = .empty ∧ ∃ p ∈ s.pools, u64 p.pairId = i ∧ u64 p.id = j
  | .deposit i j, v => ∃ r ∈ s.deposits, u64 r.poolId = i ∧ u64 r.id = j ∧ v = .deposit r
  | .depositIndex a i j, v => v = .empty ∧ ∃ r ∈ s.deposits, enc.addr (.user r.depositor) = a ∧ u64 r.poolId = i ∧ u64 r.id = j
  | .withdraw i j, v => ∃ r ∈ s.withdraws, u64 r.poolId = i ∧ u64 r.id = j ∧ v = .withdraw r
  | .withdrawIndex a i j, v => v = .empty ∧ ∃ r ∈ s.withdraws, enc.addr (.user r.withdrawer) = a ∧ u64 r.poolId = i ∧ u64 r.id = j
  | .order i j, v => ∃ o ∈ s.orders, u64 o.pairId = i ∧ u64 o.id = j ∧ v = .order o
  | .orderIndex a i j, v => v = .empty ∧ ∃ o ∈ s.orders, enc.addr (.user o.orderer) = a ∧ u64 o.pairId = i ∧ u64 o.id = j
  | .numMM a i, v => ∃ o p n, s.numMM o p = some n ∧ enc.addr (.user o) = a ∧ u64 p = i ∧ v = .count (UInt32.ofNat n).toUInt64

/-- The byte store is the image of the records. -/
structure Image (enc : Enc) (s : State) (kv : Store) : Prop where
  rep : Rep (Holds enc s) kv
  stor : Storable enc s
  pairsS : Sorted Pair.key s.pairs
  poolsS : Sorted PoolRec.key s.pools
  depsS : Sorted DepReq.key s.deposits
  wdsS : Sorted WdReq.key s.withdraws
  ordersS : Sorted OrderRec.key s.orders
  pairIds : ∀ p ∈ s.pairs, p.id ≤ s.lastPairId
  poolIds : ∀ p ∈ s.pools, p.id ≤ s.lastPoolId
  pairUniq : ∀ p ∈ s.pairs, ∀ q ∈ s.pairs, p.base = q.base → p.quote = q.quote → p = q
  mm : ∀ a p n, s.numMM a p = some n → p < 2 ^ 64 ∧ Name (enc.addr (.user a))

theorem u64_inj {a b : Nat} (ha : a < 2 ^ 64) (hb : b < 2 ^ 64) : u64 a = u64 b ↔ a = b := by
  unfold u64
  constructor
  · intro h
    have := congrArg UInt64.toNat h
    rw [UInt64.toNat_ofNat_of_lt' ha, UInt64.toNat_ofNat_of_lt' hb] at this
    exact this
  · rintro rfl; rfl

theorem exists_upsert {α : Type} {key : α → Key} {l : List α} (hs : Sorted key l) {p : α} {F : α → Prop} :
    (∃ q ∈ upsert key p l, F q) ↔ F p ∨ ∃ q ∈ l, key q ≠ key p ∧ F q := by
  constructor
  · rintro ⟨q, hq, h⟩
    rcases hs.mem_upsert.1 hq with rfl | ⟨h1, h2⟩
    · exact Or.inl h
    · exact Or.inr ⟨q, h1, h2, h⟩
  · rintro (h | ⟨q, h1, h2, h⟩)
    · exact ⟨p, hs.mem_upsert.2 (Or.inl rfl), h⟩
    · exact ⟨q, hs.mem_upsert.2 (Or.inr ⟨h1, h2⟩), h⟩

theorem exists_upsert_old {α : Type} {key : α → Key} {l : List α} (hs : Sorted key l) {p old : α} (ho : old ∈ l) (hk : key p = key old)
    {F : α → Prop} (hF : F p ↔ F old) : (∃ q ∈ upsert key p l, F q) ↔ ∃ q ∈ l, F q := by
  rw [exists_upsert hs]
  constructor
  · rintro (h | ⟨q, h1, _, h⟩)
    · exact ⟨old, ho, hF.1 h⟩
    · exact ⟨q, h1, h⟩
  · rintro ⟨q, h1, h⟩
    by_cases e : key q = key p
    · have : q = old := hs.inj h1 ho (e.trans hk)
      rw [this] at h
      exact Or.inl (hF.2 h)
    · exact Or.inr ⟨q, h1, e, h⟩

theorem exists_upsert_new {α : Type} {key : α → Key} {l : List α} (hs : Sorted key l) {p : α} (hn : ∀ q ∈ l, key q ≠ key p)
    {F : α → Prop} : (∃ q ∈ upsert key p l, F q) ↔ F p ∨ ∃ q ∈ l, F q := by
  rw [exists_upsert hs]
  constructor
  · rintro (h | ⟨q, h1, _, h⟩)
    · exact Or.inl h
    · exact Or.inr ⟨q, h1, h⟩
  · rintro (h | ⟨q, h1, h⟩)
    · exact Or.inl h
    · exact Or.inr ⟨q, h1, hn q h1, h⟩

variable {enc : Enc} {s : State} {kv kv' : Store}

theorem image_genesis (h : Genesis s) : Image enc s [] where
  rep :=
    { ordered := List.Pairwise.nil
      mem := by
        intro k v
        constructor
        · intro h; cases h
        · rintro ⟨e, _, _, he⟩
          exfalso
          cases e <;> simp [Holds, h.pairs, h.pools, h.deposits, h.withdraws, h.orders, h.numMM, h.lastPairId, h.lastPoolId] at he
      wf := by
        intro e v he
        exfalso
        cases e <;> simp [Holds, h.pairs, h.pools, h.deposits, h.withdraws, h.orders, h.numMM, h.lastPairId, h.lastPoolId] at he }
  stor := by constructor <;> simp [h.pairs, h.pools, h.deposits, h.withdraws, h.orders, h.lastPairId, h.lastPoolId]
  pairsS := by rw [h.pairs]; exact Sorted.nil
  poolsS := by rw [h.pools]; exact Sorted.nil
  depsS := by rw [h.deposits]; exact Sorted.nil
  wdsS := by rw [h.withdraws]; exact Sorted.nil
  ordersS := by rw [h.orders]; exact Sorted.nil
  pairIds := by simp [h.pairs]
  poolIds := by simp [h.pools]
  pairUniq := by simp [h.pairs]
  mm := by simp [h.numMM]

theorem image_idle {s' : State} (h : Image enc s kv) (hs : SameRecords s s') : Image enc s' kv := by
  obtain ⟨h1, h2, h3, h4, h5, h6, h7, h8⟩ := hs
  refine ⟨h.rep.congr ?_, ?_, ?_, ?_, ?_, ?_, ?_, ?_, ?_, ?_, ?_⟩
  · intro e v; cases e <;> simp only [Holds, h1, h2, h3, h4, h5, h6, h7, h8]
  · obtain ⟨g1, g2, g3, g4, g5, g6, g7⟩ := h.stor
    constructor <;> simpa only [h1, h2, h3, h4, h5, h6, h7, h8]
  · rw [h3]; exact h.pairsS
  · rw [h4]; exact h.poolsS
  · rw [h5]; exact h.depsS
  · rw [h6]; exact h.wdsS
  · rw [h7]; exact h.ordersS
  · rw [h3, h1]; exact h.pairIds
  · rw [h4, h2]; exact h.poolIds
  · rw [h3]; exact h.pairUniq
  · rw [h8]; exact h.mm

theorem mem_upsert_split {α : Type} {key : α → Key} {l : List α} (hs : Sorted key l) {p : α} {P : α → Prop} (hp : P p)
    (hl : ∀ q ∈ l, P q) : ∀ q ∈ upsert key p l, P q := by
  intro q hq
  rcases hs.mem_upsert.1 hq with rfl | ⟨h, _⟩
  · exact hp
  · exact hl q h

theorem image_pairSaved {old p : Pair} (h : Image enc s kv) (ho : old ∈ s.pairs)
    (hs : p.id = old.id ∧ p.base = old.base ∧ p.quote = old.quote) : Image enc (s.setPair p) (KV.setPair p kv) := by
  obtain ⟨e1, e2, e3⟩ := hs
  have hk : p.key = old.key := by unfold Pair.key; rw [e1]
  have st := h.stor.pairs old ho
  refine ⟨(h.rep.set (e := .pair (u64 p.id)) trivial rfl (.pair p)).congr ?_, { h.stor with pairs := ?_ }, h.pairsS.upsert p, h.poolsS, h.depsS,
    h.wdsS, h.ordersS, ?_, h.poolIds, ?_, h.mm⟩
  · intro e v
    cases e with
    | pair i =>
      simp only [Holds, putH, State.setPair, Entity.pair.injEq, ne_eq]
      rw [exists_upsert h.pairsS]
      constructor
      · rintro (⟨rfl, rfl⟩ | ⟨q, hq, hne, rfl, rfl⟩)
        · exact Or.inl ⟨rfl, rfl⟩
        · refine Or.inr ⟨fun e => hne ?_, q, hq, rfl, rfl⟩
          rw [e1, u64_inj (h.stor.pairs q hq).1 st.1] at e
          unfold Pair.key; rw [e, e1]
      · rintro (⟨rfl, rfl⟩ | ⟨hne, q, hq, rfl, rfl⟩)
        · exact Or.inl ⟨rfl, rfl⟩
        · refine Or.inr ⟨q, hq, fun e => hne ?_, rfl, rfl⟩
          have : q.id = p.id := congrArg Prod.fst e
          rw [this]
    | pairIndex a b =>
      simp only [Holds, putH, State.setPair, reduceCtorEq, false_and, ne_eq, not_false_eq_true, true_and, false_or]
      rw [exists_upsert_old h.pairsS ho hk (by rw [e1, e2, e3])]
    | pairByDenoms a b i =>
      simp only [Holds, putH, State.setPair, reduceCtorEq, false_and, ne_eq, not_false_eq_true, true_and, false_or]
      rw [exists_upsert_old h.pairsS ho hk (by rw [e1, e2, e3])]
    | _ => simp only [Holds, putH, State.setPair, reduceCtorEq, false_and, ne_eq, not_false_eq_true, true_and, false_or]
  · exact mem_upsert_split h.pairsS (by rw [e1, e2, e3]; exact st) h.stor.pairs
  · exact mem_upsert_split h.pairsS (by rw [e1]; exact h.pairIds old ho) h.pairIds
  · intro a ha b hb hab hab'
    rcases h.pairsS.mem_upsert.1 ha with rfl | ⟨ha1, na⟩ <;> rcases h.pairsS.mem_upsert.1 hb with rfl | ⟨hb1, nb⟩
    · rfl
    · exact absurd (by rw [← h.pairUniq old ho b hb1 (e2 ▸ hab) (e3 ▸ hab'), hk]) nb
    · exact absurd (by rw [h.pairUniq a ha1 old ho (by rw [hab, e2]) (by rw [hab', e3]), hk]) na
    · exact h.pairUniq a ha1 b hb1 hab hab'

/-- The `simp` set for entities a change does not touch. -/
macro "other" : tactic => `(tactic|
  simp only [Holds, putH, delH, State.setPair, State.setPool, State.setDeposit, State.setWithdraw, State.setOrder, State.setNumMM,
    reduceCtorEq, false_and, ne_eq, not_false_eq_true, true_and, false_or])

theorem image_pairCreated (hsp : Spelling enc) {p : Pair} (h : Image enc s kv) (hid : p.id = s.lastPairId + 1)
    (hnew : ∀ q ∈ s.pairs, ¬ (q.base = p.base ∧ q.quote = p.quote)) (hfit : p.id < 2 ^ 64)
    (hb : Name (enc.denom p.base)) (hq : Name (enc.denom p.quote)) :
    Image enc ({ s with lastPairId := p.id }.setPair p)
        (setPairLookupIndex enc p.quote p.base p.id (setPairLookupIndex enc p.base p.quote p.id
          (setPairIndex enc p.base p.quote p.id (KV.setPair p (setLastPairId p.id kv))))) := by
  have hk : ∀ q ∈ s.pairs, q.key ≠ p.key := by
    intro q hq e
    have e : q.id = p.id := congrArg Prod.fst e
    have := h.pairIds q hq
    omega
  have hu : ∀ q ∈ s.pairs, u64 q.id ≠ u64 p.id := by
    intro q hq e
    rw [u64_inj (h.stor.pairs q hq).1 hfit] at e
    have := h.pairIds q hq
    omega
  have R1 := h.rep.set (e := .lastPairId) trivial rfl (.id (u64 p.id))
  have R2 := R1.set (e := .pair (u64 p.id)) trivial rfl (.pair p)
  have R3 := R2.set (e := .pairIndex (enc.denom p.base) (enc.denom p.quote)) ⟨hb, hq⟩ rfl (.id (u64 p.id))
  have R4 := R3.set (e := .pairByDenoms (enc.denom p.base) (enc.denom p.quote) (u64 p.id)) ⟨hb, hq⟩ rfl .empty
  have R5 := R4.set (e := .pairByDenoms (enc.denom p.quote) (enc.denom p.base) (u64 p.id)) ⟨hq, hb⟩ rfl .empty
  refine ⟨R5.congr ?_, { h.stor with lastPairId := hfit, pairs := ?_ }, h.pairsS.upsert p, h.poolsS, h.depsS,
    h.wdsS, h.ordersS, ?_, h.poolIds, ?_, h.mm⟩
  · intro e v
    cases e with
    | lastPairId =>
      simp only [Holds, putH, State.setPair, reduceCtorEq, false_and, ne_eq, not_false_eq_true, true_and, false_or, not_true_eq_false, or_false]
      exact ⟨fun h => h.2, fun h => ⟨by omega, h⟩⟩
    | pair i =>
      simp only [Holds, putH, State.setPair, Entity.pair.injEq, ne_eq, reduceCtorEq, false_and, not_false_eq_true, true_and, false_or]
      rw [exists_upsert_new h.pairsS hk]
      constructor
      · rintro (⟨rfl, rfl⟩ | ⟨q, hq, rfl, rfl⟩)
        · exact Or.inl ⟨rfl, rfl⟩
        · exact Or.inr ⟨hu q hq, q, hq, rfl, rfl⟩
      · rintro (⟨rfl, rfl⟩ | ⟨hne, q, hq, rfl, rfl⟩)
        · exact Or.inl ⟨rfl, rfl⟩
        · exact Or.inr ⟨q, hq, rfl, rfl⟩
    | pairIndex a b =>
      simp only [Holds, putH, State.setPair, Entity.pairIndex.injEq, ne_eq, reduceCtorEq, false_and, not_false_eq_true, true_and, false_or]
      rw [exists_upsert_new h.pairsS hk]
      constructor
      · rintro (⟨rfl, rfl, rfl⟩ | ⟨q, hq', rfl, rfl, rfl⟩)
        · exact Or.inl ⟨⟨rfl, rfl⟩, rfl⟩
        · refine Or.inr ⟨fun e => hnew q hq' ⟨?_, ?_⟩, q, hq', rfl, rfl, rfl⟩
          · exact hsp.denom _ _ (h.stor.pairs q hq').2.1 e.1
          · exact hsp.denom _ _ (h.stor.pairs q hq').2.2 e.2
      · rintro (⟨⟨rfl, rfl⟩, rfl⟩ | ⟨_, q, hq', rfl, rfl, rfl⟩)
        · exact Or.inl ⟨rfl, rfl, rfl⟩
        · exact Or.inr ⟨q, hq', rfl, rfl, rfl⟩
    | pairByDenoms a b i =>
      simp only [Holds, putH, State.setPair, Entity.pairByDenoms.injEq, ne_eq, reduceCtorEq, false_and, not_false_eq_true, true_and, false_or]
      rw [exists_upsert_new h.pairsS hk]
      constructor
      · rintro ⟨rfl, ⟨rfl, ⟨rfl, rfl⟩ | ⟨rfl, rfl⟩⟩ | ⟨q, hq', rfl, hd⟩⟩
        · by_cases e : enc.denom p.base = enc.denom p.quote
          · exact Or.inl ⟨⟨e, e.symm, rfl⟩, rfl⟩
          · exact Or.inr ⟨fun x => e x.1, Or.inl ⟨⟨rfl, rfl, rfl⟩, rfl⟩⟩
        · exact Or.inl ⟨⟨rfl, rfl, rfl⟩, rfl⟩
        · exact Or.inr ⟨fun e => hu q hq' e.2.2, Or.inr ⟨fun e => hu q hq' e.2.2, rfl, q, hq', rfl, hd⟩⟩
      · rintro (⟨⟨rfl, rfl, rfl⟩, rfl⟩ | ⟨_, ⟨⟨rfl, rfl, rfl⟩, rfl⟩ | ⟨_, rfl, q, hq', rfl, hd⟩⟩)
        · exact ⟨rfl, Or.inl ⟨rfl, Or.inr ⟨rfl, rfl⟩⟩⟩
        · exact ⟨rfl, Or.inl ⟨rfl, Or.inl ⟨rfl, rfl⟩⟩⟩
        · exact ⟨rfl, Or.inr ⟨q, hq', rfl, hd⟩⟩
    | _ => other
  · exact mem_upsert_split h.pairsS ⟨hfit, hb, hq⟩ h.stor.pairs
  · refine mem_upsert_split h.pairsS (le_refl _) (fun q hq => ?_)
    have := h.pairIds q hq
    show q.id ≤ p.id
    omega
  · intro a ha b hb hab hab'
    rcases h.pairsS.mem_upsert.1 ha with rfl | ⟨ha1, na⟩ <;> rcases h.pairsS.mem_upsert.1 hb with rfl | ⟨hb1, nb⟩
    · rfl
    · exact absurd ⟨hab.symm, hab'.symm⟩ (hnew b hb1)
    · exact absurd ⟨hab, hab'⟩ (hnew a ha1)
    · exact h.pairUniq a ha1 b hb1 hab hab'

theorem image_poolSaved {old p : PoolRec} (h : Image enc s kv) (ho : old ∈ s.pools)
    (hs : p.id = old.id ∧ p.pairId = old.pairId) : Image enc (s.setPool p) (KV.setPool p kv) := by
  obtain ⟨e1, e2⟩ := hs
  have hk : p.key = old.key := by unfold PoolRec.key; rw [e1]
  have st := h.stor.pools old ho
  refine ⟨(h.rep.set (e := .pool (u64 p.id)) trivial rfl (.pool p)).congr ?_, { h.stor with pools := ?_ }, h.pairsS, h.poolsS.upsert p, h.depsS,
    h.wdsS, h.ordersS, h.pairIds, ?_, h.pairUniq, h.mm⟩
  · intro e v
    cases e with
    | pool i =>
      simp only [Holds, putH, State.setPool, Entity.pool.injEq, ne_eq]
      rw [exists_upsert h.poolsS]
      constructor
      · rintro (⟨rfl, rfl⟩ | ⟨q, hq, hne, rfl, rfl⟩)
        · exact Or.inl ⟨rfl, rfl⟩
        · refine Or.inr ⟨fun e => hne ?_, q, hq, rfl, rfl⟩
          rw [e1, u64_inj (h.stor.pools q hq).1 st.1] at e
          unfold PoolRec.key; rw [e, e1]
      · rintro (⟨rfl, rfl⟩ | ⟨hne, q, hq, rfl, rfl⟩)
        · exact Or.inl ⟨rfl, rfl⟩
        · refine Or.inr ⟨q, hq, fun e => hne ?_, rfl, rfl⟩
          have : q.id = p.id := congrArg Prod.fst e
          rw [this]
    | poolByReserve a =>
      other
      rw [exists_upsert_old h.poolsS ho hk (by rw [e1])]
    | poolByPair i j =>
      other
      rw [exists_upsert_old h.poolsS ho hk (by rw [e1, e2])]
    | _ => other
  · exact mem_upsert_split h.poolsS (by rw [e1, e2]; exact st) h.stor.pools
  · exact mem_upsert_split h.poolsS (by rw [e1]; exact h.poolIds old ho) h.poolIds

theorem image_poolCreated (hsp : Spelling enc) {p : PoolRec} (h : Image enc s kv) (hid : p.id = s.lastPoolId + 1)
    (hfit : p.id < 2 ^ 64) (hfit' : p.pairId < 2 ^ 64) (ha : Name (enc.addr (.poolReserve p.id)))
    (hk : setPoolByReserveIndex enc p (KV.setPool p (setLastPoolId p.id kv)) = some kv') :
    Image enc ({ s with lastPoolId := p.id }.setPool p) (setPoolsByPairIndex p kv') := by
  have hkey : ∀ q ∈ s.pools, q.key ≠ p.key := by
    intro q hq e
    have e : q.id = p.id := congrArg Prod.fst e
    have := h.poolIds q hq
    omega
  have hu : ∀ q ∈ s.pools, u64 q.id ≠ u64 p.id := by
    intro q hq e
    rw [u64_inj (h.stor.pools q hq).1 hfit] at e
    have := h.poolIds q hq
    omega
  have R1 := h.rep.set (e := .lastPoolId) trivial rfl (.id (u64 p.id))
  have R2 := R1.set (e := .pool (u64 p.id)) trivial rfl (.pool p)
  obtain ⟨k, hk1, rfl⟩ := Option.map_eq_some_iff.1 hk
  have R3 := R2.set (e := .poolByReserve (enc.addr (.poolReserve p.id))) ha hk1 (.id (u64 p.id))
  have R4 := R3.set (e := .poolByPair (u64 p.pairId) (u64 p.id)) trivial rfl .empty
  refine ⟨R4.congr ?_, { h.stor with lastPoolId := hfit, pools := ?_ }, h.pairsS, h.poolsS.upsert p, h.depsS,
    h.wdsS, h.ordersS, h.pairIds, ?_, h.pairUniq, h.mm⟩
  · intro e v
    cases e with
    | lastPoolId =>
      simp only [Holds, putH, State.setPool, reduceCtorEq, false_and, ne_eq, not_false_eq_true, true_and, false_or, not_true_eq_false, or_false]
      exact ⟨fun h => h.2, fun h => ⟨by omega, h⟩⟩
    | pool i =>
      simp only [Holds, putH, State.setPool, Entity.pool.injEq, ne_eq, reduceCtorEq, false_and, not_false_eq_true, true_and, false_or]
      rw [exists_upsert_new h.poolsS hkey]
      constructor
      · rintro (⟨rfl, rfl⟩ | ⟨q, hq, rfl, rfl⟩)
        · exact Or.inl ⟨rfl, rfl⟩
        · exact Or.inr ⟨hu q hq, q, hq, rfl, rfl⟩
      · rintro (⟨rfl, rfl⟩ | ⟨hne, q, hq, rfl, rfl⟩)
        · exact Or.inl ⟨rfl, rfl⟩
        · exact Or.inr ⟨q, hq, rfl, rfl⟩
    | poolByReserve a =>
      simp only [Holds, putH, State.setPool, Entity.poolByReserve.injEq, ne_eq, reduceCtorEq, false_and, not_false_eq_true, true_and, false_or]
      rw [exists_upsert_new h.poolsS hkey]
      constructor
      · rintro (⟨rfl, rfl⟩ | ⟨q, hq', rfl, rfl⟩)
        · exact Or.inl ⟨rfl, rfl⟩
        · refine Or.inr ⟨fun e => hu q hq' ?_, q, hq', rfl, rfl⟩
          have := hsp.addr _ _ (h.stor.pools q hq').2.2 e
          rw [Addr.poolReserve.inj this]
      · rintro (⟨rfl, rfl⟩ | ⟨_, q, hq', rfl, rfl⟩)
        · exact Or.inl ⟨rfl, rfl⟩
        · exact Or.inr ⟨q, hq', rfl, rfl⟩
    | poolByPair i j =>
      simp only [Holds, putH, State.setPool, Entity.poolByPair.injEq, ne_eq, reduceCtorEq, false_and, not_false_eq_true, true_and, false_or]
      rw [exists_upsert_new h.poolsS hkey]
      constructor
      · rintro ⟨rfl, ⟨rfl, rfl⟩ | ⟨q, hq', rfl, rfl⟩⟩
        · exact Or.inl ⟨⟨rfl, rfl⟩, rfl⟩
        · exact Or.inr ⟨fun e => hu q hq' e.2, rfl, q, hq', rfl, rfl⟩
      · rintro (⟨⟨rfl, rfl⟩, rfl⟩ | ⟨_, rfl, q, hq', rfl, rfl⟩)
        · exact ⟨rfl, Or.inl ⟨rfl, rfl⟩⟩
        · exact ⟨rfl, Or.inr ⟨q, hq', rfl, rfl⟩⟩
    | _ => other
  · exact mem_upsert_split h.poolsS ⟨hfit, hfit', ha⟩ h.stor.pools
  · refine mem_upsert_split h.poolsS (le_refl _) (fun q hq => ?_)
    have := h.poolIds q hq
    show q.id ≤ p.id
    omega

end Verif.Dex.KV

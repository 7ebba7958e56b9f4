import Verif.Proofs.QueryRead
/-! # The queries for the pairs of one or two denoms -/
namespace Verif.Dex.Query
open Verif Verif.Dex Verif.Dex.Keys Verif.Dex.KV Verif.Spec Verif.Spec.Keys

variable {α : Type} {enc : Enc} {s : State} {kv : Store}

/-- The other denom of a pair. -/
def other (p : Pair) (d : Denom) : Denom := if p.base = d then p.quote else p.base

theorem mem_prefixStore (h : Image enc s kv) {pre : Bytes} {P : Entity → Prop} (hs : ScanFinds pre P) (e : Bytes × Val) :
    e ∈ prefixStore kv pre ↔ ∃ x, x.WellFormed ∧ keyOf x = some (pre ++ e.1) ∧ Holds enc s x e.2 ∧ P x := by
  unfold prefixStore
  rw [List.mem_map]
  constructor
  · rintro ⟨y, hy, rfl⟩
    rw [scan_eq, List.mem_filter] at hy
    obtain ⟨h1, h2⟩ := hy
    simp only [decide_eq_true_eq] at h2
    obtain ⟨x, w, hk, hv⟩ := (h.rep.mem y.1 y.2).1 h1
    have hy : pre ++ y.1.drop pre.length = y.1 := by
      obtain ⟨t, ht⟩ := h2
      rw [← ht]; simp
    exact ⟨x, w, by simp only; rw [hy]; exact hk, hv, (hs x _ w hk).1 h2⟩
  · rintro ⟨x, w, hk, hv, hP⟩
    refine ⟨(pre ++ e.1, e.2), ?_, by simp⟩
    rw [scan_eq, List.mem_filter]
    exact ⟨(h.rep.mem _ _).2 ⟨x, w, hk, hv⟩, by simp⟩

theorem mem_byDenom (h : Image enc s kv) (hsp : Spelling enc) {d : Denom} (hd : Name (enc.denom d)) (e : Bytes × Val) :
    e ∈ prefixStore kv (getPairsByDenomIndexKeyPrefix (enc.denom d)) ↔ ∃ p ∈ s.pairs, (p.base = d ∨ p.quote = d) ∧
      e = (lengthPrefixString (enc.denom (other p d)) ++ be64 (u64 p.id), .empty) := by
  rw [mem_prefixStore h (Props.C32_scan_one 0 (enc.denom d) (enc.denom d) hd hd).2.2.1]
  constructor
  · rintro ⟨x, w, hk, hv, c, i, rfl⟩
    obtain ⟨h1, p, hp, rfl, h2⟩ := hv
    have hoth : (p.base = d ∨ p.quote = d) ∧ enc.denom (other p d) = c := by
      rcases h2 with ⟨h3, h4⟩ | ⟨h3, h4⟩
      · have := (hsp.denom d p.base hd h3.symm).symm
        exact ⟨Or.inl this, by rw [other, if_pos this, h4]⟩
      · have := (hsp.denom d p.quote hd h3.symm).symm
        refine ⟨Or.inr this, ?_⟩
        unfold other
        split
        · rename_i hb; rw [this, ← hb, h4]
        · exact h4
    refine ⟨p, hp, hoth.1, ?_⟩
    have hk' : getPairsByDenomsIndexKey (enc.denom d) c (u64 p.id) = getPairsByDenomIndexKeyPrefix (enc.denom d) ++ e.1 := Option.some.inj hk
    unfold getPairsByDenomsIndexKey getPairsByDenomIndexKeyPrefix at hk'
    rw [List.append_assoc, List.append_cancel_left_eq] at hk'
    rw [hoth.2, hk']
    exact Prod.ext rfl h1
  · rintro ⟨p, hp, hb, rfl⟩
    refine ⟨.pairByDenoms (enc.denom d) (enc.denom (other p d)) (u64 p.id), ⟨hd, ?_⟩, ?_, ⟨rfl, p, hp, rfl, ?_⟩, _, _, rfl⟩
    · unfold other; split
      · exact (h.stor.pairs p hp).2.2
      · exact (h.stor.pairs p hp).2.1
    · simp [keyOf, getPairsByDenomsIndexKey, getPairsByDenomIndexKeyPrefix]
    · unfold other
      split
      · rename_i hb'; exact Or.inl ⟨by rw [hb'], rfl⟩
      · rename_i hb'; exact Or.inr ⟨by rw [hb.resolve_left hb'], rfl⟩

/-- What the query does with an entry of the index. -/
def byDenom (kv : Store) (pre : Bytes) (e : Bytes × Val) : Option (Option Pair) :=
  (parsePairsByDenomsIndexKey (pre ++ e.1)).bind fun x => present (KV.getPair kv x.2.2)

theorem byDenom_parse (h : Image enc s kv) {pre : Bytes} {a b : Bytes} {p : Pair} {e : Bytes × Val}
    (hp : p ∈ s.pairs) (he : pre ++ e.1 = getPairsByDenomsIndexKey a b (u64 p.id)) (ha : Name a) (hb : Name b) (hl : a.length + b.length ≤ 252) :
    byDenom kv pre e = some (some p) := by
  unfold byDenom
  have hlk : s.getPair p.id = some p := h.pairsS.lookup_iff.2 ⟨hp, rfl⟩
  rw [he, Props.C33_pairs_by_denoms_partial a b _ ha hb hl, Option.bind_some, h.getPair (h.stor.pairs p hp).1, hlk]
  rfl

theorem other_length (d : Denom) (p : Pair) (hb : p.base = d ∨ p.quote = d) :
    (enc.denom d).length + (enc.denom (other p d)).length = (enc.denom p.base).length + (enc.denom p.quote).length := by
  unfold other
  split
  · rename_i h; rw [h]
  · rename_i h; rw [hb.resolve_left h]; omega

theorem name_other (h : Image enc s kv) {p : Pair} (hp : p ∈ s.pairs) (d : Denom) : Name (enc.denom (other p d)) := by
  unfold other; split
  · exact (h.stor.pairs p hp).2.2
  · exact (h.stor.pairs p hp).2.1

theorem pages_byDenom (h : Image enc s kv) (hsp : Spelling enc) (hl : s.pairs.length < 2 ^ 64) {d : Denom} (hd : Name (enc.denom d))
    (hshort : ∀ p ∈ s.pairs, p.base = d ∨ p.quote = d → (enc.denom p.base).length + (enc.denom p.quote).length ≤ 252) :
    ∃ L : List Pair, L.Perm (s.pairs.filter (fun p => p.base = d ∨ p.quote = d)) ∧ PagesThrough (pairs enc kv [d]) L := by
  have hmem := mem_byDenom h hsp hd
  have hf : ∀ e ∈ prefixStore kv (getPairsByDenomIndexKeyPrefix (enc.denom d)), ∀ p ∈ s.pairs, p.base = d ∨ p.quote = d →
      e = (lengthPrefixString (enc.denom (other p d)) ++ be64 (u64 p.id), .empty) →
      byDenom kv (getPairsByDenomIndexKeyPrefix (enc.denom d)) e = some (some p) := by
    rintro e he p hp hb rfl
    exact byDenom_parse h (a := enc.denom d) (b := enc.denom (other p d)) hp
      (by simp [getPairsByDenomsIndexKey, getPairsByDenomIndexKeyPrefix]) hd (name_other h hp d)
      (by rw [other_length d p hb]; exact hshort p hp hb)
  have hperm : ((hits (fun e => (byDenom kv (getPairsByDenomIndexKeyPrefix (enc.denom d)) e).join)
      (prefixStore kv (getPairsByDenomIndexKeyPrefix (enc.denom d)))).map (·.2)).Perm (s.pairs.filter (fun p => p.base = d ∨ p.quote = d)) := by
    have hn2 : (s.pairs.filter (fun p => p.base = d ∨ p.quote = d)).Nodup :=
      (List.Pairwise.imp (fun hlt => by rintro rfl; exact absurd hlt (by simp [keyLt_iff])) h.pairsS : s.pairs.Nodup).filter _
    rw [List.perm_ext_iff_of_nodup ?_ hn2]
    · intro p
      rw [List.mem_map, List.mem_filter]
      unfold hits
      simp only [List.mem_filterMap, decide_eq_true_eq]
      constructor
      · rintro ⟨y, ⟨e, he, hy⟩, rfl⟩
        obtain ⟨p, hp, hb, e'⟩ := (hmem e).1 he
        rw [hf e he p hp hb e'] at hy
        cases hy
        exact ⟨hp, hb⟩
      · rintro ⟨hp, hb⟩
        have he := (hmem _).2 ⟨p, hp, hb, rfl⟩
        exact ⟨(_, p), ⟨_, he, by rw [hf _ he p hp hb rfl]; rfl⟩, rfl⟩
    · unfold hits
      rw [List.map_filterMap]
      unfold List.Nodup
      rw [List.pairwise_filterMap]
      refine Pairwise.imp_mem (prefixStore_ordered h.rep.ordered _) (fun a ha b hb hlt x hx y hy => ?_)
      obtain ⟨p, hp, hpb, ep⟩ := (hmem a).1 ha
      obtain ⟨q, hq, hqb, eq⟩ := (hmem b).1 hb
      simp only [hf a ha p hp hpb ep] at hx
      simp only [hf b hb q hq hqb eq] at hy
      cases hx
      cases hy
      rintro rfl
      rw [ep, eq] at hlt
      exact bytes_irrefl _ hlt
  refine ⟨_, hperm, ?_⟩
  have hp : Pageable (byDenom kv (getPairsByDenomIndexKeyPrefix (enc.denom d))) (fun e => (byDenom kv (getPairsByDenomIndexKeyPrefix (enc.denom d)) e).join)
      (prefixStore kv (getPairsByDenomIndexKeyPrefix (enc.denom d))) := {
    ordered := prefixStore_ordered h.rep.ordered _
    keys := fun e he => by obtain ⟨p, hp, hb, rfl⟩ := (hmem e).1 he; simp [be64_ne]
    total := fun e he => by obtain ⟨p, hp, hb, e'⟩ := (hmem e).1 he; rw [hf e he p hp hb e']; rfl
    few := by
      have := hperm.length_eq
      rw [List.length_map] at this
      rw [this]
      exact lt_of_le_of_lt (List.length_filter_le _ _) hl }
  exact hp.pages

theorem scan_byDenoms (h : Image enc s kv) (hsp : Spelling enc) {d d' : Denom} (hd : Name (enc.denom d)) (hd' : Name (enc.denom d')) :
    KV.scan kv (getPairsByDenomsIndexKeyPrefix (enc.denom d) (enc.denom d')) =
      (s.pairs.filter (fun p => (p.base = d ∧ p.quote = d') ∨ (p.base = d' ∧ p.quote = d))).map (fun p =>
        (getPairsByDenomsIndexKeyPrefix (enc.denom d) (enc.denom d') ++ be64 (u64 p.id), .empty)) := by
  refine h.rep.scan (Props.C32_scan_one 0 (enc.denom d) (enc.denom d') hd hd').2.2.2.1 _ (fun (p : Pair) => .pairByDenoms (enc.denom d) (enc.denom d') (u64 p.id))
    (fun p => getPairsByDenomsIndexKeyPrefix (enc.denom d) (enc.denom d') ++ be64 (u64 p.id)) (fun _ => .empty) (fun _ _ => rfl) ?_ ?_ ?_
  · refine Pairwise.imp_mem (h.pairsS.filter _) (fun a ha b hb hlt => ?_)
    rw [append_lt_append]
    have := (Props.C32_order (u64 a.id) (u64 b.id) 0 0 []).1.2
      (keyLt_u64_single (h.stor.pairs a (List.mem_filter.1 ha).1).1 (h.stor.pairs b (List.mem_filter.1 hb).1).1 hlt)
    unfold getPairKey at this
    rwa [append_lt_append] at this
  · intro p hp
    obtain ⟨h1, h2⟩ := List.mem_filter.1 hp
    simp only [decide_eq_true_eq] at h2
    refine ⟨⟨_, rfl⟩, rfl, p, h1, rfl, ?_⟩
    rcases h2 with ⟨rfl, rfl⟩ | ⟨rfl, rfl⟩
    · exact Or.inl ⟨rfl, rfl⟩
    · exact Or.inr ⟨rfl, rfl⟩
  · rintro e v ⟨i, rfl⟩ ⟨rfl, p, hp, rfl, hb⟩
    refine ⟨p, List.mem_filter.2 ⟨hp, ?_⟩, rfl, rfl⟩
    simp only [decide_eq_true_eq]
    rcases hb with ⟨h1, h2⟩ | ⟨h1, h2⟩
    · exact Or.inl ⟨(hsp.denom _ _ hd h1.symm).symm, (hsp.denom _ _ hd' h2.symm).symm⟩
    · exact Or.inr ⟨(hsp.denom _ _ hd' h2.symm).symm, (hsp.denom _ _ hd h1.symm).symm⟩

theorem pages_byDenoms (h : Image enc s kv) (hsp : Spelling enc) (hl : s.pairs.length < 2 ^ 64) {d d' : Denom} (hd : Name (enc.denom d))
    (hd' : Name (enc.denom d')) (hshort : (enc.denom d).length + (enc.denom d').length ≤ 252) :
    PagesThrough (pairs enc kv [d, d']) (s.pairs.filter (fun p => (p.base = d ∧ p.quote = d') ∨ (p.base = d' ∧ p.quote = d))) := by
  have := pageable_of (α := Pair) h.rep.ordered (scan_byDenoms h hsp hd hd') (fun _ _ => be64_ne _)
    (f := byDenom kv (getPairsByDenomsIndexKeyPrefix (enc.denom d) (enc.denom d'))) (r := some)
    (fun p hp => byDenom_parse h (a := enc.denom d) (b := enc.denom d') (List.mem_filter.1 hp).1 rfl hd hd' hshort)
    (lt_of_le_of_lt (List.length_filter_le _ _) hl)
  rw [List.filterMap_some] at this
  exact this

/-- An entry that cannot be read makes a counting request fail. -/
theorem pageByOffset_none {f : Bytes × Val → Option (Option α)} {offset stop : UInt64} : ∀ (es : Store) (n : UInt64) (k : Option Bytes),
    (∃ e ∈ es, f e = none) → pageByOffset f offset stop true n k es = none := by
  intro es
  induction es with
  | nil => rintro n k ⟨e, he, _⟩; cases he
  | cons e es ih =>
    rintro n k ⟨e', he', hf⟩
    unfold pageByOffset
    cases hfe : f e with
    | none => rfl
    | some r =>
      have hin : ∃ e ∈ es, f e = none := by
        rcases List.mem_cons.1 he' with rfl | h1
        · rw [hf] at hfe; cases hfe
        · exact ⟨e', h1, hf⟩
      simp only [ih _ _ hin, if_true, Option.map_none, ite_self]

theorem paginate_none {f : Bytes × Val → Option (Option α)} {store : Store} {r : PageReq} (hk : r.key = []) (hc : r.countTotal = true ∨ r.limit = 0)
    (h : ∃ e ∈ store, f e = none) : paginate f store r = none := by
  unfold paginate
  obtain ⟨h1, h2, h3, h4, h5, h6⟩ := defaults_eq r
  simp only
  rw [h1, hk, if_neg (by simp), entriesFrom_nil, Option.bind_some, if_neg (by simp), h5.2 hc, pageByOffset_none]
  · rfl
  · obtain ⟨e, he, hf⟩ := h
    exact ⟨e, mem_visited.2 he, hf⟩

/-- With the largest page size the page ends at the first entry that is no hit. -/
theorem paginate_max {f : Bytes × Val → Option (Option α)} {e : Bytes × Val} {es : Store} (hf : f e = some none) :
    paginate f (e :: es) { limit := 18446744073709551615 } = some ⟨[], some e.1, 0⟩ := by
  have hd : defaults { limit := 18446744073709551615 } = { limit := 18446744073709551615 } := if_neg (by decide)
  have hb : pageByOffset f 0 (0 + 18446744073709551615) false 0 none (e :: es) = some ([], some e.1, 0) := by
    unfold pageByOffset
    rw [hf]
    simp only [Option.isSome_none, Bool.false_eq_true, if_false, Option.toList_none, ite_self]
    rw [if_pos (by decide)]
    rfl
  unfold paginate
  simp only [hd]
  rw [if_neg (by decide), entriesFrom_nil, Option.bind_some, if_neg (by decide)]
  show Option.map _ (pageByOffset f 0 (0 + 18446744073709551615) false 0 none (e :: es)) = _
  rw [hb]
  rfl

theorem byDenom_fails (h : Image enc s kv) (hsp : Spelling enc) {d : Denom} (hd : Name (enc.denom d)) {p : Pair} (hp : p ∈ s.pairs)
    (hb : p.base = d ∨ p.quote = d) (h1 : (enc.denom p.base).length ≤ 128) (h2 : (enc.denom p.quote).length ≤ 128)
    (h3 : 253 ≤ (enc.denom p.base).length + (enc.denom p.quote).length) {r : PageReq} (hk : r.key = []) (hc : r.countTotal = true ∨ r.limit = 0) :
    pairs enc kv [d] r = none := by
  refine paginate_none hk hc ⟨_, (mem_byDenom h hsp hd _).2 ⟨p, hp, hb, rfl⟩, ?_⟩
  have e : getPairsByDenomIndexKeyPrefix (enc.denom d) ++ (lengthPrefixString (enc.denom (other p d)) ++ be64 (u64 p.id)) =
      getPairsByDenomsIndexKey (enc.denom d) (enc.denom (other p d)) (u64 p.id) := by
    simp [getPairsByDenomsIndexKey, getPairsByDenomIndexKeyPrefix]
  have hd128 : (enc.denom d).length ≤ 128 := by rcases hb with rfl | rfl <;> assumption
  have ho128 : (enc.denom (other p d)).length ≤ 128 := by unfold other; split <;> assumption
  simp only
  rw [e, Props.C33_pairs_by_denoms_fails _ _ _ hd (name_other h hp d) hd128 ho128 (by rw [other_length d p hb]; exact h3)]
  rfl

end Verif.Dex.Query

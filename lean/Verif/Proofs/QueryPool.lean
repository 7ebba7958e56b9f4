import Verif.Proofs.QueryRead
/-! # The queries for pools -/
namespace Verif.Dex.Query
open Verif Verif.Dex Verif.Dex.Keys Verif.Dex.KV Verif.Spec Verif.Spec.Keys

variable {env : Env} {enc : Enc} {s : State} {kv : Store}

theorem withPair_iff (h : Image enc s kv) {p : PoolRec} (hp : p ∈ s.pools) (r : PoolRes) :
    withPair env s.bank kv p = some r ↔ ReportsPool env s p r := by
  unfold withPair
  rw [h.getPair (h.stor.pools p hp).2.1]
  simp only [Option.join_some]
  constructor
  · intro hr
    obtain ⟨pair, h1, h2⟩ := Option.bind_eq_some_iff.1 hr
    obtain ⟨h3, h4⟩ := h.pairsS.lookup_iff.1 h1
    have h4 : pair.id = p.pairId := congrArg Prod.fst h4
    unfold poolResponse at h2
    simp only at h2
    cases hd : p.disabled with
    | true =>
      rw [hd, if_pos rfl] at h2
      cases h2
      exact ⟨rfl, ⟨pair, h3, h4, rfl, rfl⟩, rfl, by rw [hd]; rfl⟩
    | false =>
      rw [hd, if_neg (by decide)] at h2
      obtain ⟨x, h5, rfl⟩ := Option.map_eq_some_iff.1 h2
      obtain ⟨a, h6, h7⟩ := Option.bind_eq_some_iff.1 h5
      exact ⟨rfl, ⟨pair, h3, h4, rfl, rfl⟩, rfl, by rw [hd]; exact ⟨a, x, h6, h7, rfl⟩⟩
  · rintro ⟨rfl, ⟨pair, h3, h4, h5, h6⟩, h7, h8⟩
    have hl : s.getPair r.pool.pairId = some pair := h.pairsS.lookup_iff.2 ⟨h3, by rw [← h4]; rfl⟩
    rw [hl, Option.bind_some]
    unfold poolResponse
    simp only
    cases hd : r.pool.disabled with
    | true =>
      rw [hd, if_pos rfl] at h8
      rw [if_pos rfl, ← h5, ← h6, ← h7, ← h8]
    | false =>
      rw [hd, if_neg (by decide)] at h8
      obtain ⟨a, x, h9, h10, h11⟩ := h8
      rw [if_neg (by decide), ← h5, ← h6, ← h7, h9, Option.bind_some, h10, Option.map_some, ← h11]

theorem pages_reports (h : Image enc s kv) (hl : s.pools.length < 2 ^ 64) {i : Nat} (hi : i < 2 ^ 64) (dis : Option Bool)
    (hr : ∀ p ∈ s.pools, ∃ r, ReportsPool env s p r) :
    ∃ L, List.Forall₂ (ReportsPool env s) (s.pools.filter (fun p => (i = 0 ∨ p.pairId = i) ∧ (dis = none ∨ dis = some p.disabled))) L ∧
      PagesThrough (pools env s.bank kv (u64 i) dis) L := by
  let f : PoolRec → PoolRes := fun p => (withPair env s.bank kv p).getD ⟨p, 0, 0, 0, none⟩
  have hf : ∀ p ∈ s.pools, withPair env s.bank kv p = some (f p) := fun p hp => by
    obtain ⟨r, hr⟩ := hr p hp
    simp only [f]
    rw [(withPair_iff h hp r).2 hr]
    rfl
  refine ⟨_, ?_, pages_pools h hl hi hf⟩
  rw [List.forall₂_map_right_iff, List.forall₂_same]
  intro p hp
  have := (List.mem_filter.1 hp).1
  exact (withPair_iff h this _).1 (hf p this)

theorem mapM_none {α β : Type} {h : α → Option β} : ∀ {L : List α}, (∃ x ∈ L, h x = none) → L.mapM h = none := by
  intro L
  induction L with
  | nil => rintro ⟨x, hx, _⟩; cases hx
  | cons y L ih =>
    rintro ⟨x, hx, hn⟩
    rw [List.mapM_cons]
    rcases List.mem_cons.1 hx with rfl | h1
    · rw [hn]; rfl
    · cases h y with
      | none => rfl
      | some z => rw [ih ⟨x, h1, hn⟩]; rfl

/-- One pool of the page that cannot be reported makes the query fail. -/
theorem pools_fails (h : Image enc s kv) (hl : s.pools.length < 2 ^ 64) {i : Nat} (hi : i < 2 ^ 64) (dis : Option Bool) {p : PoolRec}
    (hp : p ∈ s.pools) (hsel : (i = 0 ∨ p.pairId = i) ∧ (dis = none ∨ dis = some p.disabled)) (hr : ∀ r, ¬ ReportsPool env s p r)
    {r : PageReq} (hf : FirstPage r) (hoff : r.offset = 0) (hlim : s.pools.length ≤ effectiveLimit r) :
    pools env s.bank kv (u64 i) dis r = none := by
  have hnone : withPair env s.bank kv p = none := by
    cases e : withPair env s.bank kv p with
    | none => rfl
    | some x => exact absurd ((withPair_iff h hp x).1 e) (hr x)
  have key : ∀ (q : PageReq → Option (PageRes PoolRec)) (L : List PoolRec), PagesThrough q L → L.Sublist s.pools → p ∈ L →
      (∃ x, q r = some x ∧ (x.items.mapM (withPair env s.bank kv)) = none) := by
    intro q L hq hs hpL
    obtain ⟨x, h1, h2, _⟩ := hq.window r hf
    refine ⟨x, h1, mapM_none ⟨p, ?_, hnone⟩⟩
    rw [h2, hoff]
    simp only [UInt64.toNat_zero, List.drop_zero]
    rw [List.take_of_length_le]
    · split
      · exact List.mem_reverse.2 hpL
      · exact hpL
    · have := hs.length_le
      split
      · rw [List.length_reverse]; omega
      · omega
  unfold pools
  simp only
  by_cases h0 : i = 0
  · rw [if_pos ((u64_zero hi).2 h0)]
    have h1 := pages_poolRecs h hl (wanted := fun p => if dis = none ∨ dis = some p.disabled then some p else none)
    rw [filterMap_if] at h1
    obtain ⟨x, h2, h3⟩ := key _ _ h1 List.filter_sublist (List.mem_filter.2 ⟨hp, by simpa using hsel.2⟩)
    rw [h2, Option.bind_some, h3]
    rfl
  · rw [if_neg (fun e => h0 ((u64_zero hi).1 e))]
    have h1 := pages_poolRecsOf h hl (wanted := fun p => if dis = none ∨ dis = some p.disabled then some p else none) hi
    rw [filterMap_if, List.filter_filter] at h1
    obtain ⟨x, h2, h3⟩ := key _ _ h1 List.filter_sublist
      (List.mem_filter.2 ⟨hp, by simpa using ⟨hsel.2, hsel.1.resolve_left h0⟩⟩)
    rw [h2, Option.bind_some, h3]
    rfl

/-- Asking for one pool. -/
theorem pool_iff (h : Image enc s kv) {i : Nat} (hi : i < 2 ^ 64) (r : PoolRes) :
    pool env s.bank kv (u64 i) = some r ↔ i ≠ 0 ∧ ∃ p ∈ s.pools, p.id = i ∧ ReportsPool env s p r := by
  unfold pool
  by_cases h0 : i = 0
  · rw [if_pos ((u64_zero hi).2 h0)]
    simp [h0]
  · rw [if_neg (fun e => h0 ((u64_zero hi).1 e)), h.getPool hi]
    simp only [Option.join_some, ne_eq, h0, not_false_eq_true, true_and]
    constructor
    · intro hr
      obtain ⟨p, h1, h2⟩ := Option.bind_eq_some_iff.1 hr
      obtain ⟨h3, h4⟩ := h.poolsS.lookup_iff.1 h1
      exact ⟨p, h3, congrArg Prod.fst h4, (withPair_iff h h3 r).1 h2⟩
    · rintro ⟨p, h1, rfl, h2⟩
      have hl : s.getPool p.id = some p := h.poolsS.lookup_iff.2 ⟨h1, rfl⟩
      rw [hl, Option.bind_some]
      exact (withPair_iff h h1 r).2 h2

theorem poolByReserve_iff (h : Image enc s kv) (hsp : Spelling enc) {a : Addr} (ha : Name (enc.addr a)) (r : PoolRes) :
    poolByReserveAddress env enc s.bank kv a = some r ↔ ∃ p ∈ s.pools, a = .poolReserve p.id ∧ ReportsPool env s p r := by
  unfold poolByReserveAddress
  rw [h.getPoolByReserve hsp ha]
  simp only [Option.join_some]
  constructor
  · intro hr
    obtain ⟨p, h1, h2⟩ := Option.bind_eq_some_iff.1 hr
    cases a with
    | poolReserve id =>
      obtain ⟨h3, h4⟩ := h.poolsS.lookup_iff.1 (show s.getPool id = some p from h1)
      exact ⟨p, h3, by rw [show p.id = id from congrArg Prod.fst h4], (withPair_iff h h3 r).1 h2⟩
    | _ => simp [reservePool] at h1
  · rintro ⟨p, h1, rfl, h2⟩
    have hl : reservePool s (.poolReserve p.id) = some p := show s.getPool p.id = some p from h.poolsS.lookup_iff.2 ⟨h1, rfl⟩
    rw [hl, Option.bind_some]
    exact (withPair_iff h h1 r).2 h2

theorem poolByDenom_iff (h : Image enc s kv) (d : List Char) (r : PoolRes) :
    poolByPoolCoinDenom env s.bank kv d = some r ↔ ∃ p ∈ s.pools, 0 < p.id ∧ d = poolCoinDenom (u64 p.id) ∧ ReportsPool env s p r := by
  unfold poolByPoolCoinDenom
  constructor
  · intro hr
    obtain ⟨id, h1, h2⟩ := Option.bind_eq_some_iff.1 hr
    obtain ⟨h3, rfl⟩ := (Props.C34_parse_iff d id).1 h1
    have hid : u64 id.toNat = id := by simp [u64]
    rw [← hid, h.getPool id.toNat_lt] at h2
    simp only [Option.join_some] at h2
    obtain ⟨p, h4, h5⟩ := Option.bind_eq_some_iff.1 h2
    obtain ⟨h6, h7⟩ := h.poolsS.lookup_iff.1 h4
    have h7 : p.id = id.toNat := congrArg Prod.fst h7
    exact ⟨p, h6, by rw [h7]; exact h3, by rw [h7, hid], (withPair_iff h h6 r).1 h5⟩
  · rintro ⟨p, h1, h2, rfl, h3⟩
    have hfit := (h.stor.pools p h1).1
    have hpos : 0 < u64 p.id := by
      rw [UInt64.lt_iff_toNat_lt]
      unfold u64
      rw [UInt64.toNat_ofNat_of_lt' hfit]
      exact h2
    have hl : s.getPool p.id = some p := h.poolsS.lookup_iff.2 ⟨h1, rfl⟩
    rw [(Props.C34_parse_iff _ (u64 p.id)).2 ⟨hpos, rfl⟩, Option.bind_some, h.getPool hfit, hl]
    exact (withPair_iff h h1 r).2 h3

end Verif.Dex.Query

import Verif.Proofs.Page
/-! # The queries on the byte store -/
namespace Verif.Dex.Query
open Verif Verif.Dex Verif.Dex.Keys Verif.Dex.KV Verif.Spec Verif.Spec.Keys

variable {α β : Type} {enc : Enc} {s : State} {kv : Store}

theorem prefixStore_ordered (ho : Ordered kv) (pre : Bytes) : Ordered (prefixStore kv pre) := by
  unfold prefixStore
  rw [scan_eq]
  unfold Ordered
  rw [List.pairwise_map]
  refine Pairwise.imp_mem (List.Pairwise.filter _ ho) (fun a ha b hb h => ?_)
  have ha' := (List.mem_filter.1 ha).2
  have hb' := (List.mem_filter.1 hb).2
  simp only [decide_eq_true_eq] at ha' hb'
  obtain ⟨x, hx⟩ := ha'
  obtain ⟨y, hy⟩ := hb'
  rw [← hx, ← hy] at h ⊢
  rw [append_lt_append] at h
  simpa using h

theorem prefixStore_eq {pre : Bytes} {L : List β} {rest : β → Bytes} {val : β → Val}
    (h : KV.scan kv pre = L.map (fun x => (pre ++ rest x, val x))) : prefixStore kv pre = L.map (fun x => (rest x, val x)) := by
  unfold prefixStore
  rw [h, List.map_map]
  apply List.map_congr_left
  intro x _
  simp

/-- A query over the entries of a list of records. -/
theorem pageable_of (ho : Ordered kv) {pre : Bytes} {L : List β} {rest : β → Bytes} {val : β → Val}
    (h : KV.scan kv pre = L.map (fun x => (pre ++ rest x, val x))) (hne : ∀ x ∈ L, rest x ≠ []) {f : Bytes × Val → Option (Option α)}
    {r : β → Option α} (hf : ∀ x ∈ L, f (rest x, val x) = some (r x)) (hlen : L.length < 2 ^ 64) :
    PagesThrough (paginate f (prefixStore kv pre)) (L.filterMap r) := by
  have hst := prefixStore_eq h
  have hhits : (hits (fun e => (f e).join) (prefixStore kv pre)).map (·.2) = L.filterMap r := by
    rw [hst]
    unfold hits
    rw [List.filterMap_map, List.map_filterMap]
    apply List.filterMap_congr
    intro x hx
    simp only [Function.comp_apply, hf x hx]
    cases r x <;> rfl
  have hp : Pageable f (fun e => (f e).join) (prefixStore kv pre) := {
    ordered := prefixStore_ordered ho pre
    keys := fun e he => by
      rw [hst] at he
      obtain ⟨x, hx, rfl⟩ := List.mem_map.1 he
      exact hne x hx
    total := fun e he => by
      rw [hst] at he
      obtain ⟨x, hx, rfl⟩ := List.mem_map.1 he
      rw [hf x hx]
      rfl
    few := by
      have := congrArg List.length hhits
      rw [List.length_map] at this
      rw [this]
      exact lt_of_le_of_lt (List.length_filterMap_le _ _) hlen }
  rw [← hhits]
  exact hp.pages

theorem u64_zero {i : Nat} (hi : i < 2 ^ 64) : u64 i = 0 ↔ i = 0 := u64_inj hi (by decide)

theorem be64_ne (n : UInt64) : be64 n ≠ [] := fun h => by have := be64_length n; rw [h] at this; cases this

theorem filterMap_if {L : List α} {p : α → Prop} [DecidablePred p] : L.filterMap (fun x => if p x then some x else none) = L.filter p := by
  induction L with
  | nil => rfl
  | cons x L ih => by_cases h : p x <;> simp [h, ih]

theorem pages_pairs (h : Image enc s kv) (hl : s.pairs.length < 2 ^ 64) : PagesThrough (pairs enc kv []) s.pairs := by
  have := pageable_of (α := Pair) h.rep.ordered (pre := pairKeyPrefix) (L := s.pairs) (rest := fun p => be64 (u64 p.id)) (val := .pair)
    h.scan_pairs (fun _ _ => be64_ne _) (f := fun e => (asPair e.2).map some) (r := some) (fun _ _ => rfl) hl
  rwa [List.filterMap_some] at this

theorem pages_deposits (h : Image enc s kv) (hl : s.deposits.length < 2 ^ 64) {i : Nat} (hi : i < 2 ^ 64) (h0 : i ≠ 0) :
    PagesThrough (depositRequests kv (u64 i)) (s.deposits.filter (fun r => r.poolId = i)) := by
  have h1 := pageable_of (α := DepReq) h.rep.ordered (pre := depositRequestKeyPrefix) (L := s.deposits)
    (rest := fun p => be64 (u64 p.poolId) ++ be64 (u64 p.id)) (val := .deposit)
    (by rw [h.scan_deposits]; simp [getDepositRequestKey]) (fun _ _ => by simp [be64_ne])
    (f := fun e => (asDeposit e.2).map fun r => if u64 r.poolId = u64 i then some r else none)
    (r := fun r => if r.poolId = i then some r else none) (fun x hx => by
      simp only [asDeposit, Option.map_some, u64_inj (h.stor.deposits x hx).1 hi]) hl
  rw [filterMap_if] at h1
  have : depositRequests kv (u64 i) = paginate (fun e => (asDeposit e.2).map fun r => if u64 r.poolId = u64 i then some r else none)
      (prefixStore kv depositRequestKeyPrefix) := by
    funext r
    unfold depositRequests
    rw [if_neg (fun e => h0 ((u64_zero hi).1 e))]
  rw [this]
  exact h1

theorem pages_withdraws (h : Image enc s kv) (hl : s.withdraws.length < 2 ^ 64) {i : Nat} (hi : i < 2 ^ 64) (h0 : i ≠ 0) :
    PagesThrough (withdrawRequests kv (u64 i)) (s.withdraws.filter (fun r => r.poolId = i)) := by
  have h1 := pageable_of (α := WdReq) h.rep.ordered (pre := withdrawRequestKeyPrefix) (L := s.withdraws)
    (rest := fun p => be64 (u64 p.poolId) ++ be64 (u64 p.id)) (val := .withdraw)
    (by rw [h.scan_withdraws]; simp [getWithdrawRequestKey]) (fun _ _ => by simp [be64_ne])
    (f := fun e => (asWithdraw e.2).map fun r => if u64 r.poolId = u64 i then some r else none)
    (r := fun r => if r.poolId = i then some r else none) (fun x hx => by
      simp only [asWithdraw, Option.map_some, u64_inj (h.stor.withdraws x hx).1 hi]) hl
  rw [filterMap_if] at h1
  have : withdrawRequests kv (u64 i) = paginate (fun e => (asWithdraw e.2).map fun r => if u64 r.poolId = u64 i then some r else none)
      (prefixStore kv withdrawRequestKeyPrefix) := by
    funext r
    unfold withdrawRequests
    rw [if_neg (fun e => h0 ((u64_zero hi).1 e))]
  rw [this]
  exact h1

theorem pages_orders (h : Image enc s kv) (hl : s.orders.length < 2 ^ 64) {i : Nat} (hi : i < 2 ^ 64) (h0 : i ≠ 0) :
    PagesThrough (orders kv (u64 i)) (s.orders.filter (fun r => r.pairId = i)) := by
  have h1 := pageable_of (α := OrderRec) h.rep.ordered (pre := orderKeyPrefix) (L := s.orders)
    (rest := fun p => be64 (u64 p.pairId) ++ be64 (u64 p.id)) (val := .order)
    (by rw [h.scan_orders]; simp [getOrderKey]) (fun _ _ => by simp [be64_ne])
    (f := fun e => (asOrder e.2).map fun r => if u64 r.pairId = u64 i then some r else none)
    (r := fun r => if r.pairId = i then some r else none) (fun x hx => by
      simp only [asOrder, Option.map_some, u64_inj (h.stor.orders x hx).1 hi]) hl
  rw [filterMap_if] at h1
  have : orders kv (u64 i) = paginate (fun e => (asOrder e.2).map fun r => if u64 r.pairId = u64 i then some r else none)
      (prefixStore kv orderKeyPrefix) := by
    funext r
    unfold orders
    rw [if_neg (fun e => h0 ((u64_zero hi).1 e))]
  rw [this]
  exact h1

theorem pages_ordersBy (h : Image enc s kv) (hsp : Spelling enc) (hl : s.orders.length < 2 ^ 64) {n i : Nat} (hi : i < 2 ^ 64)
    (hn : Name (enc.addr (.user n))) (hs : (enc.addr (.user n)).length ≤ 245) :
    PagesThrough (ordersByOrderer enc kv (.user n) (u64 i)) (s.orders.filter (fun o => o.orderer = n ∧ (i = 0 ∨ o.pairId = i))) := by
  obtain ⟨q, hq, hmem, hscan⟩ := h.scan_ordersBy hsp hn
  have hlen : (s.orders.filter (fun r => r.orderer = n)).length < 2 ^ 64 := lt_of_le_of_lt (List.length_filter_le _ _) hl
  have h1 := pageable_of (α := OrderRec) h.rep.ordered (pre := q) (L := s.orders.filter (fun r => r.orderer = n))
    (rest := fun p => be64 (u64 p.pairId) ++ be64 (u64 p.id)) (val := fun _ => .empty) hscan (fun _ _ => by simp [be64_ne])
    (f := fun e => (parseOrderIndexKey (q ++ e.1)).bind fun x =>
      if u64 i ≠ 0 ∧ x.2.1 ≠ u64 i then some none else present (KV.getOrder kv x.2.1 x.2.2))
    (r := fun r => if i = 0 ∨ r.pairId = i then some r else none) (fun x hx => by
      obtain ⟨⟨h1, h2⟩, h3⟩ := hmem x hx
      have hp := (Props.C33_address_keys (enc.addr (.user n)) (u64 x.pairId) (u64 x.id) hn.1 hs).2.2.1
      rw [h3, Option.bind_some] at hp
      have e0 := u64_zero hi
      have e1 := u64_inj (h.stor.orders x h1).1 hi
      simp only [hp, Option.bind_some]
      by_cases hc : i = 0 ∨ x.pairId = i
      · have hlk : lookup OrderRec.key (x.pairId, x.id) s.orders = some x := h.ordersS.lookup_iff.2 ⟨h1, rfl⟩
        rw [if_pos hc, if_neg (by rw [Ne, Ne, e0, e1]; tauto), h.getOrder (h.stor.orders x h1).1 (h.stor.orders x h1).2.1, hlk]
        rfl
      · rw [if_neg hc, if_pos (by rw [Ne, Ne, e0, e1]; tauto)]) hlen
  rw [filterMap_if, List.filter_filter] at h1
  have e : (fun (a : OrderRec) => decide (i = 0 ∨ a.pairId = i) && decide (a.orderer = n)) =
      fun o => decide (o.orderer = n ∧ (i = 0 ∨ o.pairId = i)) := by
    funext o
    rw [Bool.and_comm, ← Bool.decide_and]
  rw [e] at h1
  have : ordersByOrderer enc kv (.user n) (u64 i) = paginate (fun e => (parseOrderIndexKey (q ++ e.1)).bind fun x =>
      if u64 i ≠ 0 ∧ x.2.1 ≠ u64 i then some none else present (KV.getOrder kv x.2.1 x.2.2)) (prefixStore kv q) := by
    funext r
    unfold ordersByOrderer
    rw [hq]
    rfl
  rw [this]
  exact h1

/-- Answering each record of a page. -/
def answered (q : PageReq → Option (PageRes α)) (h : α → Option β) (r : PageReq) : Option (PageRes β) :=
  (q r).bind fun p => (p.items.mapM h).map fun l => ⟨l, p.nextKey, p.total⟩

theorem mapM_map {h : α → Option β} {f : α → β} {L : List α} (hh : ∀ x ∈ L, h x = some (f x)) : L.mapM h = some (L.map f) := by
  induction L with
  | nil => rfl
  | cons x L ih => rw [List.mapM_cons, hh x (List.mem_cons_self ..), ih (fun y hy => hh y (List.mem_cons_of_mem _ hy))]; rfl

theorem mapM_some {h : α → Option β} {f : α → β} (hh : ∀ x y, h x = some y → y = f x) : ∀ {L : List α} {M : List β}, L.mapM h = some M → M = L.map f := by
  intro L
  induction L with
  | nil => intro M hm; cases hm; rfl
  | cons x L ih =>
    intro M hm
    rw [List.mapM_cons] at hm
    cases e1 : h x with
    | none => rw [e1] at hm; cases hm
    | some y =>
      cases e2 : L.mapM h with
      | none => rw [e1, e2] at hm; cases hm
      | some N =>
        rw [e1, e2] at hm
        cases hm
        rw [List.map_cons, hh x y e1, ih e2]

theorem answered_walk_back {q : PageReq → Option (PageRes α)} {h : α → Option β} {f : α → β} (hh : ∀ x y, h x = some y → y = f x) {r : PageReq}
    {l : List β} (hw : Walk (answered q h) r l) : ∃ l', Walk q r l' ∧ l = l'.map f := by
  have key : ∀ {r : PageReq} {p : PageRes β}, answered q h r = some p → ∃ p', q r = some p' ∧ p.items = p'.items.map f ∧ p.nextKey = p'.nextKey := by
    intro r p hp
    unfold answered at hp
    cases e : q r with
    | none => rw [e] at hp; cases hp
    | some p' =>
      rw [e, Option.bind_some] at hp
      obtain ⟨M, hM, rfl⟩ := Option.map_eq_some_iff.1 hp
      exact ⟨p', rfl, mapM_some hh hM, rfl⟩
  induction hw with
  | last hq hk =>
    obtain ⟨p', h1, h2, h3⟩ := key hq
    exact ⟨_, .last h1 (by rw [← h3]; exact hk), h2⟩
  | next hq hk hr _ ih =>
    obtain ⟨p', h1, h2, h3⟩ := key hq
    obtain ⟨l', h4, h5⟩ := ih
    exact ⟨_, .next h1 (by rw [← h3]; exact hk) hr h4, by rw [h2, h5, List.map_append]⟩

theorem answered_walk {q : PageReq → Option (PageRes α)} {h : α → Option β} {f : α → β} {r : PageReq}
    {l : List α} (hw : Walk q r l) (hh : ∀ x ∈ l, h x = some (f x)) : Walk (answered q h) r (l.map f) := by
  induction hw with
  | last hq hk => exact .last (p := ⟨_, _, _⟩) (by rw [answered, hq, Option.bind_some, mapM_map hh]; rfl) hk
  | next hq hk hr _ ih =>
    rw [List.map_append]
    exact .next (p := ⟨_, _, _⟩) (by
      rw [answered, hq, Option.bind_some, mapM_map (fun x hx => hh x (List.mem_append_left _ hx))]; rfl) hk hr
      (ih (fun x hx => hh x (List.mem_append_right _ hx)))

theorem pages_answered {q : PageReq → Option (PageRes α)} {L : List α} (hp : PagesThrough q L) {h : α → Option β} {f : α → β}
    (hh : ∀ x ∈ L, h x = some (f x)) : PagesThrough (answered q h) (L.map f) := by
  have hmem : ∀ (r : PageReq) (n : Nat), ∀ x ∈ (if r.reverse then L.reverse else L).drop n, x ∈ L := by
    intro r n x hx
    have := List.mem_of_mem_drop hx
    split at this
    · exact List.mem_reverse.1 this
    · exact this
  have hrev : ∀ r : PageReq, (if r.reverse then (L.map f).reverse else L.map f) = (if r.reverse then L.reverse else L).map f := by
    intro r; split <;> simp
  let f' : α → β := fun x => (h x).getD (f x)
  have hf' : ∀ x y, h x = some y → y = f' x := fun x y e => by simp [f', e]
  have hLf : ∀ x ∈ L, f' x = f x := fun x hx => by simp [f', hh x hx]
  refine ⟨fun r hr => ?_, fun r hr => ?_, fun r l hr hw => ?_, fun r h1 h2 => by rw [answered, hp.both r h1 h2]; rfl⟩
  · obtain ⟨p, h1, h2, h3, h4⟩ := hp.window r hr
    have hm : p.items.mapM h = some (p.items.map f) := mapM_map (fun x hx => hh x (by
      rw [h2] at hx; exact hmem r _ x (List.mem_of_mem_take hx)))
    refine ⟨⟨p.items.map f, p.nextKey, p.total⟩, by rw [answered, h1, Option.bind_some, hm]; rfl, ?_, by simpa using h3, by simpa using h4⟩
    simp only
    rw [h2, hrev, List.map_take, List.map_drop]
  · obtain ⟨l, hl⟩ := hp.ends r hr
    exact ⟨_, answered_walk hl (fun x hx => hh x (by rw [hp.all r l hr hl] at hx; exact hmem r _ x hx))⟩
  · obtain ⟨l', h1, rfl⟩ := answered_walk_back hf' hw
    rw [hp.all r l' hr h1, hrev, ← List.map_drop]
    apply List.map_congr_left
    intro x hx
    exact hLf x (hmem r _ x hx)

theorem pages_poolRecs (h : Image enc s kv) (hl : s.pools.length < 2 ^ 64) {wanted : PoolRec → Option PoolRec} :
    PagesThrough (paginate (fun e => (asPool e.2).map wanted) (prefixStore kv poolKeyPrefix)) (s.pools.filterMap wanted) :=
  pageable_of (α := PoolRec) h.rep.ordered (pre := poolKeyPrefix) (L := s.pools) (rest := fun p => be64 (u64 p.id)) (val := .pool)
    h.scan_pools (fun _ _ => be64_ne _) (fun _ _ => rfl) hl

theorem pages_poolRecsOf (h : Image enc s kv) (hl : s.pools.length < 2 ^ 64) {wanted : PoolRec → Option PoolRec} {i : Nat} (hi : i < 2 ^ 64) :
    PagesThrough (paginate (fun e => (parsePoolsByPairIndexKey (getPoolsByPairIndexKeyPrefix (u64 i) ++ e.1)).bind fun id =>
      ((KV.getPool kv id).join).map wanted) (prefixStore kv (getPoolsByPairIndexKeyPrefix (u64 i))))
      ((s.pools.filter (fun p => p.pairId = i)).filterMap wanted) := by
  have hmem : ∀ r ∈ s.pools.filter (fun r => r.pairId = i), r ∈ s.pools ∧ r.pairId = i := fun r hr => by
    simpa using List.mem_filter.1 hr
  refine pageable_of (α := PoolRec) h.rep.ordered (L := s.pools.filter (fun p => p.pairId = i)) (rest := fun p => be64 (u64 p.id)) (val := fun _ => .empty)
    ?_ (fun _ _ => be64_ne _) (fun x hx => ?_) (lt_of_le_of_lt (List.length_filter_le _ _) hl)
  · rw [h.scan_poolsByPair hi]
    apply List.map_congr_left
    intro p hp
    rw [(hmem p hp).2]
    rfl
  · have hk : getPoolsByPairIndexKeyPrefix (u64 i) ++ be64 (u64 x.id) = getPoolsByPairIndexKey (u64 i) (u64 x.id) := rfl
    obtain ⟨h1, h2⟩ := hmem x hx
    simp only
    have hlk : s.getPool x.id = some x := h.poolsS.lookup_iff.2 ⟨h1, rfl⟩
    rw [hk, Props.C33_pools_by_pair, Option.bind_some, h.getPool (h.stor.pools x h1).1, hlk]
    rfl

theorem pages_pools (h : Image enc s kv) (hl : s.pools.length < 2 ^ 64) {env : Env} {bank : Bank} {i : Nat} (hi : i < 2 ^ 64) {dis : Option Bool}
    {f : PoolRec → PoolRes} (hf : ∀ p ∈ s.pools, withPair env bank kv p = some (f p)) :
    PagesThrough (pools env bank kv (u64 i) dis)
      ((s.pools.filter (fun p => (i = 0 ∨ p.pairId = i) ∧ (dis = none ∨ dis = some p.disabled))).map f) := by
  by_cases h0 : i = 0
  · have h1 := pages_poolRecs h hl (wanted := fun p => if dis = none ∨ dis = some p.disabled then some p else none)
    rw [filterMap_if] at h1
    have h2 := pages_answered h1 (h := withPair env bank kv) (f := f) (fun x hx => hf x (List.mem_filter.1 hx).1)
    have e : s.pools.filter (fun p => (i = 0 ∨ p.pairId = i) ∧ (dis = none ∨ dis = some p.disabled)) =
        s.pools.filter (fun p => dis = none ∨ dis = some p.disabled) := List.filter_congr (fun x _ => by simp [h0])
    rw [e]
    have : pools env bank kv (u64 i) dis = answered (paginate (fun e => (asPool e.2).map fun p => if dis = none ∨ dis = some p.disabled then some p else none)
        (prefixStore kv poolKeyPrefix)) (withPair env bank kv) := by
      funext r
      unfold pools answered
      simp only
      rw [if_pos ((u64_zero hi).2 h0)]
    rw [this]
    exact h2
  · have h1 := pages_poolRecsOf h hl (wanted := fun p => if dis = none ∨ dis = some p.disabled then some p else none) hi
    rw [filterMap_if, List.filter_filter] at h1
    have h2 := pages_answered h1 (h := withPair env bank kv) (f := f) (fun x hx => hf x (List.mem_filter.1 hx).1)
    have e : s.pools.filter (fun p => (i = 0 ∨ p.pairId = i) ∧ (dis = none ∨ dis = some p.disabled)) =
        s.pools.filter (fun p => decide (dis = none ∨ dis = some p.disabled) && decide (p.pairId = i)) :=
      List.filter_congr (fun x _ => by simp [h0, Bool.and_comm])
    rw [e]
    have : pools env bank kv (u64 i) dis = answered (paginate (fun e => (parsePoolsByPairIndexKey (getPoolsByPairIndexKeyPrefix (u64 i) ++ e.1)).bind fun id =>
        ((KV.getPool kv id).join).map fun p => if dis = none ∨ dis = some p.disabled then some p else none)
        (prefixStore kv (getPoolsByPairIndexKeyPrefix (u64 i)))) (withPair env bank kv) := by
      funext r
      unfold pools answered
      simp only
      rw [if_neg (fun e => h0 ((u64_zero hi).1 e))]
    rw [this]
    exact h2

end Verif.Dex.Query

import Verif.Proofs.EventsRun
/-! # The events that create pairs and pools -/
namespace Verif.Dex
open Verif Verif.Amm Verif.Spec

variable {s s' : State} {log ev : List Event} {env : Env}

theorem toldPairs_off (h : ∀ e ∈ ev, e.topic ≠ .create) : toldPairs ev = [] := by
  unfold toldPairs
  rw [List.filterMap_eq_nil_iff]
  intro e he
  have := h e he
  cases e <;> first | rfl | exact absurd rfl this

theorem toldPools_off (h : ∀ e ∈ ev, e.topic ≠ .create) : toldPools ev = [] := by
  unfold toldPools
  rw [List.filterMap_eq_nil_iff]
  intro e he
  have := h e he
  cases e <;> first | rfl | exact absurd rfl this

theorem topic_requests : ∀ e ∈ executeRequestsEv env s, e.topic ≠ .create := by
  intro e he
  unfold executeRequestsEv at he
  split at he
  · simp at he
  · split at he
    · simp at he
    · split at he
      · simp at he
      · simp only [List.mem_append] at he
        rcases he with ((he | he) | he) | he
        · rcases eachEv_topic (Q := fun e => e.topic = .order ∨ e.topic = .other) (fun x s => topic_matching) _ _ e he with h | h <;>
            rw [h] <;> simp
        · rcases eachEv_topic (Q := fun e => e.topic = .order ∨ e.topic = .other) (fun x s => topic_expire) _ _ e he with h | h <;>
            rw [h] <;> simp
        · rw [eachEv_topic (Q := fun e => e.topic = .deposit) (fun x s => topic_deposit) _ _ e he]; simp
        · rw [eachEv_topic (Q := fun e => e.topic = .withdraw) (fun x s => topic_withdraw) _ _ e he]; simp

theorem topic_other_create {op : Op} (h1 : ∀ m, op ≠ .createPair m) (h2 : ∀ m, op ≠ .createPool m)
    (h3 : ∀ m, op ≠ .createRangedPool m) : ∀ e ∈ stepEv env op s, e.topic ≠ .create := by
  intro e he
  cases op with
  | createPair m => exact absurd rfl (h1 m)
  | createPool m => exact absurd rfl (h2 m)
  | createRangedPool m => exact absurd rfl (h3 m)
  | deposit m =>
    have := txEv_mem he
    unfold depositEv at this
    repeat' split at this
    all_goals first | (simp only [List.mem_singleton] at this; subst this; simp [Event.topic]) | simp at this
  | withdraw m =>
    have := txEv_mem he
    unfold withdrawEv at this
    repeat' split at this
    all_goals first | (simp only [List.mem_singleton] at this; subst this; simp [Event.topic]) | simp at this
  | limitOrder m => rw [topic_place e (txEv_mem he)]; simp
  | marketOrder m => rw [topic_place e (txEv_mem he)]; simp
  | mmOrder m => rw [topic_place e (txEv_mem he)]; simp
  | cancelOrder m => rcases topic_cancel e (txEv_mem he) with h | h <;> rw [h] <;> simp
  | cancelAllOrders m => rcases topic_cancelAll e (txEv_mem he) with h | h <;> rw [h] <;> simp
  | transfer a b c => simp [stepEv] at he
  | setParams p => simp [stepEv] at he
  | beginBlock a b => simp [stepEv] at he
  | endBlock =>
    simp only [stepEv, endBlockEv] at he
    split at he
    · simp at he
    · split at he
      · exact topic_requests e he
      · simp at he

theorem step_lastIds (hw : WF s) {op : Op} (h : step env op s = some s') :
    ((∀ m, op ≠ .createPair m) → s'.lastPairId = s.lastPairId) ∧
    ((∀ m, op ≠ .createPool m) → (∀ m, op ≠ .createRangedPool m) → s'.lastPoolId = s.lastPoolId) := by
  by_cases c2 : op = .endBlock
  · subst c2
    simp only [step, endBlock] at h
    split at h
    · cases h
    · split at h
      · exact ⟨fun _ => (executeRequests_spec hw h).lastPairId, fun _ _ => (executeRequests_spec hw h).lastPoolId⟩
      · cases h; exact ⟨fun _ => rfl, fun _ _ => rfl⟩
  by_cases c3 : ∃ a b, op = .beginBlock a b
  · obtain ⟨a, b, rfl⟩ := c3
    cases h
    exact ⟨fun _ => rfl, fun _ _ => rfl⟩
  push Not at c3
  have hx := step_effect hw c3 c2 h
  clear h
  cases hx with
  | same _ h => rw [h]; exact ⟨fun _ => rfl, fun _ _ => rfl⟩
  | pair m b hb h => exact ⟨fun c => absurd rfl (c m), fun _ _ => by rw [h]; rfl⟩
  | pool m pr cs mt h => exact ⟨fun _ => h.rest.2.1, fun c => absurd rfl (c m)⟩
  | ranged m pr cs mt h => exact ⟨fun _ => h.rest.2.1, fun _ c => absurd rfl (c m)⟩
  | deposit m p r h => exact ⟨fun _ => h.rest.2.1, fun _ _ => h.rest.2.2.1⟩
  | withdraw m p r h => exact ⟨fun _ => h.rest.2.1, fun _ _ => h.rest.2.2.1⟩
  | order _ hop p o h _ => exact ⟨fun _ => h.rest.lastPairId, fun _ _ => h.rest.lastPoolId⟩
  | cancel _ hop hf hs ho hl => exact ⟨fun _ => hf.lastPairId, fun _ _ => hf.lastPoolId⟩
  | transfer src dst cs b hb h => rw [h]; exact ⟨fun _ => rfl, fun _ _ => rfl⟩
  | params p hv h => rw [h]; exact ⟨fun _ => rfl, fun _ _ => rfl⟩

/-- What the events say about a pair. -/
def pairLine (p : Pair) : Nat × Denom × Denom := (p.id, p.base, p.quote)
/-- What the events say about a pool. -/
def poolLine (p : PoolRec) : Nat × Nat × Nat × Bool := (p.id, p.pairId, p.creator, p.range.isSome)

theorem sorted_map {α β : Type} {key : α → Key} {key' : β → Key} {f : α → β} (hf : ∀ x, key' (f x) = key x) {l : List α}
    (h : Sorted key l) : Sorted key' (l.map f) := by
  unfold Sorted at *
  rw [List.pairwise_map]
  exact h.imp (fun {a b} h => by rw [hf, hf]; exact h)

theorem pairs_same (hw : WF s) (hw' : WF s') (he : Evolves s s') (hl : s'.lastPairId = s.lastPairId) :
    s'.pairs.map pairLine = s.pairs.map pairLine := by
  refine sorted_ext (key := fun t => (t.1, 0)) (sorted_map (fun _ => rfl) hw'.pairsS) (sorted_map (fun _ => rfl) hw.pairsS) ?_
  intro x
  simp only [List.mem_map]
  constructor
  · rintro ⟨p', h1, rfl⟩
    obtain ⟨a, b⟩ := hw'.pairIds p' h1
    obtain ⟨p, h2, h3⟩ := hw.pairAll p'.id a (by omega)
    obtain ⟨p2, h4, h5, h6, h7, _⟩ := he.pairs p h2
    have : p2 = p' := hw'.pairsS.inj h4 h1 (by simp only [Pair.key]; rw [h5, h3])
    subst this
    exact ⟨p, h2, by simp only [pairLine]; rw [h5, h6, h7]⟩
  · rintro ⟨p, h2, rfl⟩
    obtain ⟨p2, h4, h5, h6, h7, _⟩ := he.pairs p h2
    exact ⟨p2, h4, by simp only [pairLine]; rw [h5, h6, h7]⟩

theorem pools_same (hw : WF s) (hw' : WF s') (he : Evolves s s') (hl : s'.lastPoolId = s.lastPoolId) :
    s'.pools.map poolLine = s.pools.map poolLine := by
  refine sorted_ext (key := fun t => (t.1, 0)) (sorted_map (fun _ => rfl) hw'.poolsS) (sorted_map (fun _ => rfl) hw.poolsS) ?_
  intro x
  simp only [List.mem_map]
  constructor
  · rintro ⟨p', h1, rfl⟩
    obtain ⟨a, b, _⟩ := hw'.poolIds p' h1
    obtain ⟨p, h2, h3⟩ := hw.poolAll p'.id a (by omega)
    obtain ⟨p2, h4, h5, h6, h7, h8, _⟩ := he.pools p h2
    have : p2 = p' := hw'.poolsS.inj h4 h1 (by simp only [PoolRec.key]; rw [h5, h3])
    subst this
    exact ⟨p, h2, by simp only [poolLine]; rw [h5, h6, h7, h8]⟩
  · rintro ⟨p, h2, rfl⟩
    obtain ⟨p2, h4, h5, h6, h7, h8, _⟩ := he.pools p h2
    exact ⟨p2, h4, by simp only [poolLine]; rw [h5, h6, h7, h8]⟩

/-- A record with a higher id goes to the end. -/
theorem pools_added (hw : WF s) (hw' : WF s') {p : PoolRec} (hid : p.id = s.lastPoolId + 1)
    (hm : ∀ x, x ∈ s'.pools ↔ x ∈ s.pools ∨ x = p) : s'.pools = s.pools ++ [p] := by
  refine sorted_ext hw'.poolsS ?_ (fun x => by rw [hm]; simp)
  unfold Sorted
  rw [List.pairwise_append]
  refine ⟨hw.poolsS, List.pairwise_singleton _ _, fun a ha b hb => ?_⟩
  simp only [List.mem_singleton] at hb
  subst hb
  have := (hw.poolIds a ha).2.1
  simp only [PoolRec.key, keyLt_iff]
  omega

theorem pairs_added (hw : WF s) (hw' : WF s') {p : Pair} (hid : p.id = s.lastPairId + 1)
    (hm : s'.pairs = upsert Pair.key p s.pairs) : s'.pairs = s.pairs ++ [p] := by
  refine sorted_ext hw'.pairsS ?_ (fun x => ?_)
  · unfold Sorted
    rw [List.pairwise_append]
    refine ⟨hw.pairsS, List.pairwise_singleton _ _, fun a ha b hb => ?_⟩
    simp only [List.mem_singleton] at hb
    subst hb
    have := (hw.pairIds a ha).2
    simp only [Pair.key, keyLt_iff]
    omega
  · rw [hm, hw.pairsS.mem_upsert]
    simp only [List.mem_append, List.mem_singleton]
    constructor
    · rintro (h | ⟨h, _⟩)
      · exact Or.inr h
      · exact Or.inl h
    · rintro (h | h)
      · refine Or.inr ⟨h, fun e => ?_⟩
        simp only [Pair.key, Prod.mk.injEq] at e
        have := (hw.pairIds x h).2
        omega
      · exact Or.inl h

theorem createPool_tells (hw : WF s) {m : MsgCreatePool} (e : Dex.createPool m s = some s') :
    ∃ coins minted, createPoolEv m s = [.createPool false m.creator m.pairId m.coins (s.lastPoolId + 1) minted] ∧
      PoolCreated m.pairId m.creator none coins minted s s' ∧ coins = m.coins := by
  obtain ⟨pair, _, h2, _, _, ap, h3, h4⟩ := createPool_created hw e
  unfold Dex.createPool at e
  unfold createPoolEv
  split at e
  · cases e
  · rename_i pair' hv
    rw [hv]
    simp only
    have h5 : s.getPair m.pairId = some pair' := (validateCreatePool_some hv).1
    split at e
    · cases e
    · rename_i ap' hap
      rw [hap]
      simp only
      have hp : pair = pair' := hw.pairsS.inj (by assumption) (hw.getPair_iff.1 h5).1 (by
        simp only [Pair.key]; rw [h2, (hw.getPair_iff.1 h5).2])
      subst hp
      rw [h3] at hap
      cases hap
      rw [h2] at h4
      exact ⟨_, _, rfl, h4, rfl⟩

theorem createRanged_tells (hw : WF s) {m : MsgCreateRangedPool} (e : createRangedPoolMsg env m s = some s') :
    ∃ coins minted, createRangedPoolEv env m s = [.createPool true m.creator m.pairId m.coins (s.lastPoolId + 1) minted] ∧
      PoolCreated m.pairId m.creator (some (m.minPrice, m.maxPrice)) coins minted s s' := by
  obtain ⟨pair, _, h2, _, _, _, _, ap, h3, _, h4⟩ := createRanged_created hw e
  unfold createRangedPoolMsg at e
  unfold createRangedPoolEv
  split at e
  · cases e
  · rename_i pair' hv
    rw [hv]
    simp only
    have h5 : s.getPair m.pairId = some pair' := (validateCreateRangedPool_some hv).1
    have hp : pair = pair' := hw.pairsS.inj (by assumption) (hw.getPair_iff.1 h5).1 (by
      simp only [Pair.key]; rw [h2, (hw.getPair_iff.1 h5).2])
    subst hp
    rw [h3]
    rw [h2] at h4
    exact ⟨_, _, rfl, h4⟩

theorem ids_step (hw : WF s) {op : Op} (e : step env op s = some s') (h1 : toldPairs log = s.pairs.map pairLine)
    (h2 : toldPools log = s.pools.map poolLine) :
    toldPairs (log ++ stepEv env op s) = s'.pairs.map pairLine ∧ toldPools (log ++ stepEv env op s) = s'.pools.map poolLine := by
  have hw' := step_wf hw e
  have hev := step_evolves hw e
  obtain ⟨l1, l2⟩ := step_lastIds hw e
  have ap1 : ∀ a b, toldPairs (a ++ b) = toldPairs a ++ toldPairs b := fun a b => List.filterMap_append
  have ap2 : ∀ a b, toldPools (a ++ b) = toldPools a ++ toldPools b := fun a b => List.filterMap_append
  rw [ap1, ap2, h1, h2]
  by_cases c1 : ∃ m, op = .createPair m
  · obtain ⟨m, rfl⟩ := c1
    rw [pools_same hw hw' hev (l2 (by simp) (by simp))]
    cases e
    simp only [stepEv]
    rcases txEv_cases (valid := m.validateBasic) (handler := Dex.createPair m) (f := createPairEv m) (s := s) with ⟨a, b⟩ | ⟨t, a, b, c⟩
    · rw [a, b]; simp [toldPairs, toldPools]
    · rw [b] at hw' ⊢
      rw [c]
      unfold Dex.createPair at a
      split at a
      · cases a
      · split at a
        · cases a
        · cases a
          refine ⟨?_, by simp [toldPools, createPairEv]⟩
          rw [pairs_added hw hw' (p := newPair (s.lastPairId + 1) m.base m.quote) rfl rfl]
          simp [toldPairs, createPairEv, pairLine, newPair]
  by_cases c2 : ∃ m, op = .createPool m
  · obtain ⟨m, rfl⟩ := c2
    rw [pairs_same hw hw' hev (l1 (by simp))]
    cases e
    simp only [stepEv]
    rcases txEv_cases (valid := m.validateBasic) (handler := Dex.createPool m) (f := createPoolEv m) (s := s) with ⟨a, b⟩ | ⟨t, a, b, c⟩
    · rw [a, b]; simp [toldPairs, toldPools]
    · rw [b] at hw' ⊢
      rw [c]
      obtain ⟨coins, minted, f1, f2, _⟩ := createPool_tells hw a
      rw [f1, pools_added hw hw' rfl f2.pools]
      simp [toldPairs, toldPools, poolLine]
  by_cases c3 : ∃ m, op = .createRangedPool m
  · obtain ⟨m, rfl⟩ := c3
    rw [pairs_same hw hw' hev (l1 (by simp))]
    cases e
    simp only [stepEv]
    rcases txEv_cases (valid := m.validateBasic) (handler := createRangedPoolMsg env m) (f := createRangedPoolEv env m) (s := s) with
      ⟨a, b⟩ | ⟨t, a, b, c⟩
    · rw [a, b]; simp [toldPairs, toldPools]
    · rw [b] at hw' ⊢
      rw [c]
      obtain ⟨coins, minted, f1, f2⟩ := createRanged_tells hw a
      rw [f1, pools_added hw hw' rfl f2.pools]
      simp [toldPairs, toldPools, poolLine]
  push Not at c1 c2 c3
  have hq := topic_other_create (env := env) (s := s) c1 c2 c3
  rw [toldPairs_off hq, toldPools_off hq, List.append_nil, List.append_nil]
  exact ⟨(pairs_same hw hw' hev (l1 c1)).symm, (pools_same hw hw' hev (l2 c2 c3)).symm⟩

theorem ids_run : ∀ {ops : List Op} {s s' : State} {log : List Event}, WF s → toldPairs log = s.pairs.map pairLine →
    toldPools log = s.pools.map poolLine → run env ops s = some s' →
    toldPairs (log ++ runEv env ops s) = s'.pairs.map pairLine ∧ toldPools (log ++ runEv env ops s) = s'.pools.map poolLine := by
  intro ops
  induction ops with
  | nil =>
    intro s s' log _ h1 h2 e
    cases e
    simp only [runEv, List.append_nil]
    exact ⟨h1, h2⟩
  | cons op ops ih =>
    intro s s' log hw h1 h2 e
    simp only [Dex.run, Option.bind_eq_some_iff] at e
    obtain ⟨t, e1, e2⟩ := e
    obtain ⟨a, b⟩ := ids_step hw e1 h1 h2
    have := ih (step_wf hw e1) a b e2
    simp only [runEv, e1]
    simpa only [List.append_assoc] using this

theorem ids_history {ops : List Op} {s0 : State} (hg : Genesis s0) (h : run env ops s0 = some s') :
    toldPairs (runEv env ops s0) = s'.pairs.map pairLine ∧ toldPools (runEv env ops s0) = s'.pools.map poolLine := by
  have := ids_run (log := []) (genesis_wf hg) (by rw [hg.pairs]; rfl) (by rw [hg.pools]; rfl) h
  simpa using this

/-! ## Accepted messages -/

theorem place_some {typ : OType} {orderer pairId : Nat} {dir : Dir} {offer : Coin} {demand : Denom} {price amount lifespan : Int}
    (e : placeOrder typ orderer pairId dir offer demand price amount lifespan s = some s') :
    placeOrderEv typ orderer pairId dir offer demand price amount lifespan s ≠ [] := by
  obtain ⟨pair, rprice, b, g1, _, _, _, _, _, g7, _⟩ := placeOrder_some e
  unfold placeOrderEv
  rw [g1]; simp only; rw [g7]; simp

theorem txEv_iff {valid : Bool} {handler : State → Option State} {f : State → List Event} (h : ∀ t, handler s = some t → f s ≠ []) :
    txEv valid handler f s ≠ [] ↔ (if valid then handler s else none).isSome = true := by
  unfold txEv
  cases valid with
  | false => simp
  | true =>
    cases e : handler s with
    | none => simp
    | some t => simpa [e] using h t e

theorem events_iff (hw : WF s) {op : Op} (hm : IsMessage op) : stepEv env op s ≠ [] ↔ (accepted env op s).isSome = true := by
  cases op with
  | createPair m => exact txEv_iff (fun t _ => by simp [createPairEv])
  | createPool m =>
    refine txEv_iff (fun t e => ?_)
    obtain ⟨_, _, h, _⟩ := createPool_tells hw e
    rw [h]; simp
  | createRangedPool m =>
    refine txEv_iff (fun t e => ?_)
    obtain ⟨_, _, h, _⟩ := createRanged_tells hw e
    rw [h]; simp
  | deposit m =>
    refine txEv_iff (fun t e => ?_)
    obtain ⟨_, _, h, _⟩ := depositMsg_form e
    simp [depositEv, h]
  | withdraw m =>
    refine txEv_iff (fun t e => ?_)
    obtain ⟨_, _, h, _⟩ := withdrawMsg_form e
    simp [withdrawEv, h]
  | limitOrder m => exact txEv_iff (fun t e => place_some e)
  | marketOrder m => exact txEv_iff (fun t e => place_some e)
  | mmOrder m =>
    refine txEv_iff (fun t e => ?_)
    unfold Dex.mmOrder at e
    simp only at e
    split at e
    · cases e
    · rw [Option.map_eq_some_iff] at e
      obtain ⟨t', a1, _⟩ := e
      exact place_some a1
  | cancelOrder m =>
    refine txEv_iff (fun t e => ?_)
    unfold Dex.cancelOrder at e
    unfold cancelOrderEv
    split at e
    · cases e
    · rename_i o ho
      rw [ho]; simp
  | cancelAllOrders m => exact txEv_iff (fun t _ => by simp [cancelAllEv])
  | transfer a b c => exact hm.elim
  | setParams p => exact hm.elim
  | beginBlock a b => exact hm.elim
  | endBlock => exact hm.elim

theorem minted_tells (hw : WF s) {op : Op} (e : step env op s = some s') {ranged : Bool} {creator pairId : Nat} {coins : Coins}
    {id : Nat} {minted : Int} (he : Event.createPool ranged creator pairId coins id minted ∈ stepEv env op s) :
    id = s.lastPoolId + 1 ∧ s'.bank.supply (.pool id) = minted ∧ 0 < minted ∧
      (ranged = false → ∀ d, s'.bank.bal (.poolReserve id) d = s.bank.bal (.poolReserve id) d + amountOf coins d +
        (if s.params.feeCollector = .poolReserve id then amountOf s.params.poolCreationFee d else 0)) := by
  by_cases c1 : ∃ m, op = .createPool m
  · obtain ⟨m, rfl⟩ := c1
    cases e
    simp only [stepEv] at he
    rcases txEv_cases (valid := m.validateBasic) (handler := Dex.createPool m) (f := createPoolEv m) (s := s) with ⟨a, b⟩ | ⟨t, a, b, c⟩
    · rw [a] at he; simp at he
    · rw [c] at he
      rw [b]
      obtain ⟨cs, mt, f1, f2, rfl⟩ := createPool_tells hw a
      rw [f1] at he
      simp only [List.mem_singleton, Event.createPool.injEq] at he
      obtain ⟨_, _, _, rfl, rfl, rfl⟩ := he
      refine ⟨rfl, by rw [f2.supply, if_pos rfl, f2.noPrevious, zero_add], f2.mintedOk.1, fun _ d => ?_⟩
      rw [f2.bank]
      by_cases hf : s.params.feeCollector = .poolReserve (s.lastPoolId + 1)
      · simp [transferEffect, hf]
      · simp [transferEffect, hf, Ne.symm hf]
  by_cases c3 : ∃ m, op = .createRangedPool m
  · obtain ⟨m, rfl⟩ := c3
    cases e
    simp only [stepEv] at he
    rcases txEv_cases (valid := m.validateBasic) (handler := createRangedPoolMsg env m) (f := createRangedPoolEv env m) (s := s) with
      ⟨a, b⟩ | ⟨t, a, b, c⟩
    · rw [a] at he; simp at he
    · rw [c] at he
      rw [b]
      obtain ⟨cs, mt, f1, f2⟩ := createRanged_tells hw a
      rw [f1] at he
      simp only [List.mem_singleton, Event.createPool.injEq] at he
      obtain ⟨rfl, _, _, rfl, rfl, rfl⟩ := he
      exact ⟨rfl, by rw [f2.supply, if_pos rfl, f2.noPrevious, zero_add], f2.mintedOk.1, by simp⟩
  push Not at c1 c3
  by_cases c2 : ∃ m, op = .createPair m
  · obtain ⟨m, rfl⟩ := c2
    have := txEv_mem he
    simp [createPairEv] at this
  push Not at c2
  exact absurd rfl (topic_other_create c2 c1 c3 _ he)

end Verif.Dex

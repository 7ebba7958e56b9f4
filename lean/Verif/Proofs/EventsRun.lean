import Verif.Proofs.EventsBlock
import Verif.Proofs.Effects
import Verif.Proofs.MarketOps
/-! # The events of a history -/
namespace Verif.Dex
open Verif Verif.Amm Verif.Spec

variable {s s' : State} {log ev : List Event} {env : Env}

/-! ## Topics -/

theorem topic_collect {x : OrderRec} {st : State × List Order} : ∀ e ∈ collectOrderEv x st, e.topic = .order ∨ e.topic = .other := by
  intro e he
  unfold collectOrderEv at he
  split at he
  · exact Or.inl (finishOrderEv_topic e he)
  · simp at he

theorem topic_apply {pair : Pair} {x : Order} {st : ApplyState} : ∀ e ∈ applyOrderEv pair x st, e.topic = .order ∨ e.topic = .other := by
  intro e he
  unfold applyOrderEv at he
  split at he
  · simp at he
  · split at he
    · split at he
      · simp at he
      · simp only [List.mem_append, List.mem_singleton] at he
        rcases he with he | rfl
        · split at he
          · exact Or.inl (finishOrderEv_topic e he)
          · simp at he
        · exact Or.inl rfl
    · simp at he

theorem topic_applyMatch {pair : Pair} {os : List Order} : ∀ e ∈ applyMatchEv pair os s, e.topic = .order ∨ e.topic = .other := by
  intro e he
  unfold applyMatchEv at he
  split at he
  · simp at he
  · rcases List.mem_append.1 he with he | he
    · exact eachEv_topic (Q := fun e => e.topic = .order ∨ e.topic = .other) (fun x s => topic_apply) _ _ e he
    · obtain ⟨r, _, rfl⟩ := List.mem_map.1 he
      exact Or.inr rfl

theorem topic_matching {pair : Pair} : ∀ e ∈ executeMatchingEv env pair s, e.topic = .order ∨ e.topic = .other := by
  intro e he
  unfold executeMatchingEv at he
  rcases List.mem_append.1 he with he | he
  · exact eachEv_topic (Q := fun e => e.topic = .order ∨ e.topic = .other) (fun x s => topic_collect) _ _ e he
  · split at he
    · simp at he
    · split at he
      · simp at he
      · split at he
        · exact topic_applyMatch e he
        · simp at he

theorem topic_expire {x : OrderRec} : ∀ e ∈ expireOrderEv x s, e.topic = .order ∨ e.topic = .other := by
  intro e he
  unfold expireOrderEv at he
  split at he
  · exact Or.inl (finishOrderEv_topic e he)
  · split at he
    · exact Or.inl (finishOrderEv_topic e he)
    · simp at he

theorem topic_deposit {r : DepReq} : ∀ e ∈ depositPassEv env r s, e.topic = .deposit := by
  intro e he
  unfold depositPassEv executeDepositEv at he
  repeat' (first | split at he | (simp only at he; split at he))
  all_goals first | exact finishDepositEv_topic e he | simp at he

theorem topic_withdraw {r : WdReq} : ∀ e ∈ withdrawPassEv env r s, e.topic = .withdraw := by
  intro e he
  unfold withdrawPassEv executeWithdrawEv at he
  repeat' (first | split at he | (simp only at he; split at he))
  all_goals first | exact finishWithdrawEv_topic e he | simp at he

theorem topic_cancel {m : MsgCancelOrder} : ∀ e ∈ cancelOrderEv m s, e.topic = .order ∨ e.topic = .other := by
  intro e he
  unfold cancelOrderEv at he
  split at he
  · simp at he
  · rcases List.mem_append.1 he with he | he
    · exact Or.inl (finishOrderEv_topic e he)
    · simp only [List.mem_singleton] at he; subst he; exact Or.inr rfl

theorem topic_cancelAll {m : MsgCancelAllOrders} : ∀ e ∈ cancelAllEv m s, e.topic = .order ∨ e.topic = .other := by
  intro e he
  unfold cancelAllEv at he
  rcases List.mem_append.1 he with he | he
  · refine eachEv_topic (Q := fun e => e.topic = .order ∨ e.topic = .other) (fun x s e he => ?_) _ _ e he
    unfold cancelAllStepEv at he
    split at he
    · exact Or.inl (finishOrderEv_topic e he)
    · simp at he
  · simp only [List.mem_singleton] at he; subst he; exact Or.inr rfl

theorem topic_place {typ : OType} {orderer pairId : Nat} {dir : Dir} {offer : Coin} {demand : Denom} {price amount lifespan : Int} :
    ∀ e ∈ placeOrderEv typ orderer pairId dir offer demand price amount lifespan s, e.topic = .order := by
  intro e he
  unfold placeOrderEv at he
  repeat' split at he
  all_goals first | (simp only [List.mem_singleton] at he; subst he; rfl) | simp at he

theorem txEv_mem {valid : Bool} {handler : State → Option State} {f : State → List Event} {e : Event}
    (h : e ∈ txEv valid handler f s) : e ∈ f s := by
  unfold txEv at h
  repeat' split at h
  all_goals first | exact h | simp at h

/-- What a message other than an order message, a cancellation or the end of a block can emit about orders: nothing. -/
theorem topic_other_order {op : Op} (h1 : ∀ m, op ≠ .limitOrder m) (h2 : ∀ m, op ≠ .marketOrder m) (h3 : ∀ m, op ≠ .mmOrder m)
    (h4 : ∀ m, op ≠ .cancelOrder m) (h5 : ∀ m, op ≠ .cancelAllOrders m) (h6 : op ≠ .endBlock) :
    ∀ e ∈ stepEv env op s, e.topic ≠ .order := by
  intro e he
  cases op with
  | createPair m =>
    have := txEv_mem he
    simp only [createPairEv, List.mem_singleton] at this
    subst this; simp [Event.topic]
  | createPool m =>
    have := txEv_mem he
    unfold createPoolEv at this
    repeat' split at this
    all_goals first | (simp only [List.mem_singleton] at this; subst this; simp [Event.topic]) | simp at this
  | createRangedPool m =>
    have := txEv_mem he
    unfold createRangedPoolEv at this
    repeat' split at this
    all_goals first | (simp only [List.mem_singleton] at this; subst this; simp [Event.topic]) | simp at this
  | deposit m =>
    have := txEv_mem he
    unfold depositEv at this
    repeat' split at this
    all_goals first | (simp only [List.mem_singleton] at this; subst this; simp [Event.topic]) | simp at this
  | withdraw m =>
    have := txEv_mem he
    unfold withdrawEv at this
    repeat' split at this
    all_goals first | (simp only [List.mem_singleton] at this; subst this; simp [Event.topic]) | simp at this
  | limitOrder m => exact absurd rfl (h1 m)
  | marketOrder m => exact absurd rfl (h2 m)
  | mmOrder m => exact absurd rfl (h3 m)
  | cancelOrder m => exact absurd rfl (h4 m)
  | cancelAllOrders m => exact absurd rfl (h5 m)
  | transfer a b c => simp [stepEv] at he
  | setParams p => simp [stepEv] at he
  | beginBlock a b => simp [stepEv] at he
  | endBlock => exact absurd rfl h6

theorem topic_other_deposit {op : Op} (h1 : ∀ m, op ≠ .deposit m) (h6 : op ≠ .endBlock) :
    ∀ e ∈ stepEv env op s, e.topic ≠ .deposit := by
  intro e he
  cases op with
  | createPair m =>
    have := txEv_mem he
    simp only [createPairEv, List.mem_singleton] at this
    subst this; simp [Event.topic]
  | createPool m =>
    have := txEv_mem he
    unfold createPoolEv at this
    repeat' split at this
    all_goals first | (simp only [List.mem_singleton] at this; subst this; simp [Event.topic]) | simp at this
  | createRangedPool m =>
    have := txEv_mem he
    unfold createRangedPoolEv at this
    repeat' split at this
    all_goals first | (simp only [List.mem_singleton] at this; subst this; simp [Event.topic]) | simp at this
  | deposit m => exact absurd rfl (h1 m)
  | withdraw m =>
    have := txEv_mem he
    unfold withdrawEv at this
    repeat' split at this
    all_goals first | (simp only [List.mem_singleton] at this; subst this; simp [Event.topic]) | simp at this
  | limitOrder m => rw [topic_place e (txEv_mem he)]; simp
  | marketOrder m => rw [topic_place e (txEv_mem he)]; simp
  | mmOrder m => rw [topic_place e (txEv_mem he)]; simp
  | cancelOrder m => rcases topic_cancel e (txEv_mem he) with h | h <;> rw [h] <;> simp
  | cancelAllOrders m => rcases topic_cancelAll e (txEv_mem he) with h | h <;> rw [h] <;> simp
  | transfer a b c => simp [stepEv] at he
  | setParams p => simp [stepEv] at he
  | beginBlock a b => simp [stepEv] at he
  | endBlock => exact absurd rfl h6

theorem topic_other_withdraw {op : Op} (h1 : ∀ m, op ≠ .withdraw m) (h6 : op ≠ .endBlock) :
    ∀ e ∈ stepEv env op s, e.topic ≠ .withdraw := by
  intro e he
  cases op with
  | createPair m =>
    have := txEv_mem he
    simp only [createPairEv, List.mem_singleton] at this
    subst this; simp [Event.topic]
  | createPool m =>
    have := txEv_mem he
    unfold createPoolEv at this
    repeat' split at this
    all_goals first | (simp only [List.mem_singleton] at this; subst this; simp [Event.topic]) | simp at this
  | createRangedPool m =>
    have := txEv_mem he
    unfold createRangedPoolEv at this
    repeat' split at this
    all_goals first | (simp only [List.mem_singleton] at this; subst this; simp [Event.topic]) | simp at this
  | deposit m =>
    have := txEv_mem he
    unfold depositEv at this
    repeat' split at this
    all_goals first | (simp only [List.mem_singleton] at this; subst this; simp [Event.topic]) | simp at this
  | withdraw m => exact absurd rfl (h1 m)
  | limitOrder m => rw [topic_place e (txEv_mem he)]; simp
  | marketOrder m => rw [topic_place e (txEv_mem he)]; simp
  | mmOrder m => rw [topic_place e (txEv_mem he)]; simp
  | cancelOrder m => rcases topic_cancel e (txEv_mem he) with h | h <;> rw [h] <;> simp
  | cancelAllOrders m => rcases topic_cancelAll e (txEv_mem he) with h | h <;> rw [h] <;> simp
  | transfer a b c => simp [stepEv] at he
  | setParams p => simp [stepEv] at he
  | beginBlock a b => simp [stepEv] at he
  | endBlock => exact absurd rfl h6

/-! ## The batch -/

theorem tells_requests (h : TellsO s log) (hd : TellsD s log) (hwd : TellsW s log) (hw : WF s) (e : executeRequests env s = some s') :
    TellsO s' (log ++ executeRequestsEv env s) ∧ TellsD s' (log ++ executeRequestsEv env s) ∧
      TellsW s' (log ++ executeRequestsEv env s) := by
  unfold executeRequests at e
  unfold executeRequestsEv
  split at e
  · cases e
  · rename_i s1 h1
    rw [h1]
    simp only
    have m1 := matching_all hw h1
    split at e
    · cases e
    · rename_i s2 h2
      rw [h2]
      simp only
      have m2 := expire_all m1.wf h2
      split at e
      · cases e
      · rename_i s3 h3
        rw [h3]
        simp only
        have m3 := deposit_all m2.wf h3
        have m4 := withdraw_all m3.wf e
        have v1 := reach_evolves hw m1.reach
        have v2 := reach_evolves m1.wf m2.reach
        have v3 := reach_evolves m2.wf m3.reach
        have v4 := reach_evolves m3.wf m4.reach
        have t1 : ∀ e ∈ eachEv (executeMatching env) (executeMatchingEv env) s.pairs s, e.topic = .order ∨ e.topic = .other :=
          eachEv_topic (Q := fun e => e.topic = .order ∨ e.topic = .other) (fun x s => topic_matching) _ _
        have t2 : ∀ e ∈ eachEv expireOrder expireOrderEv s1.orders s1, e.topic = .order ∨ e.topic = .other :=
          eachEv_topic (Q := fun e => e.topic = .order ∨ e.topic = .other) (fun x s => topic_expire) _ _
        have t3 : ∀ e ∈ eachEv (depositPass env) (depositPassEv env) s2.deposits s2, e.topic = .deposit :=
          eachEv_topic (Q := fun e => e.topic = .deposit) (fun x s => topic_deposit) _ _
        have t4 : ∀ e ∈ eachEv (withdrawPass env) (withdrawPassEv env) s3.withdraws s3, e.topic = .withdraw :=
          eachEv_topic (Q := fun e => e.topic = .withdraw) (fun x s => topic_withdraw) _ _
        have a1 := tells_matchingPass h hw h1
        have a2 := tells_expirePass a1 m1.wf h2
        have a3 := a2.neutral v3 m3.orders (fun e he => by rw [t3 e he]; simp)
        have a4 := a3.neutral v4 m4.orders (fun e he => by rw [t4 e he]; simp)
        have b1 := hd.neutral v1 m1.deposits (fun e he => by rcases t1 e he with h | h <;> rw [h] <;> simp)
        have b2 := b1.neutral v2 m2.frame.deposits (fun e he => by rcases t2 e he with h | h <;> rw [h] <;> simp)
        have b3 := tells_depositPass b2 m2.wf h3
        have b4 := b3.neutral v4 m4.deposits (fun e he => by rw [t4 e he]; simp)
        have c1 := hwd.neutral v1 m1.withdraws (fun e he => by rcases t1 e he with h | h <;> rw [h] <;> simp)
        have c2 := c1.neutral v2 m2.frame.withdraws (fun e he => by rcases t2 e he with h | h <;> rw [h] <;> simp)
        have c3 := c2.neutral v3 m3.withdraws (fun e he => by rw [t3 e he]; simp)
        have c4 := tells_withdrawPass c3 m3.wf e
        simp only [List.append_assoc] at a4 b4 c4 ⊢
        exact ⟨a4, b4, c4⟩

/-! ## New records -/

theorem tells_place (h : TellsO s log) (hw : WF s) {typ : OType} {orderer pairId : Nat} {dir : Dir} {offer : Coin} {demand : Denom}
    {price amount lifespan : Int} (e : placeOrder typ orderer pairId dir offer demand price amount lifespan s = some s') :
    TellsO s' (log ++ placeOrderEv typ orderer pairId dir offer demand price amount lifespan s) := by
  obtain ⟨pair, rprice, b, g1, _, _, _, g5, g6, g7, _, g9, _, rfl⟩ := placeOrder_some e
  obtain ⟨hp, hid⟩ := hw.getPair_iff.1 g1
  obtain ⟨f1, f2, _⟩ := placed_facts (hw.pairNe pair hp).1 g5 g9
  unfold placeOrderEv
  rw [g1]
  simp only
  rw [g7]
  simp only
  have hk : ∀ k : Key, k ≠ (pair.id, pair.lastOrderId + 1) → ¬ (pairId = k.1 ∧ pair.lastOrderId + 1 = k.2) := by
    rintro k hk ⟨e1, e2⟩
    exact hk (by rw [hid, e1, e2])
  unfold TellsO at *
  refine Tells.add h (o := ?o) ?_ ?_ ?_ ?_ ?_
  case o => exact
        { typ, id := pair.lastOrderId + 1, pairId := pair.id, msgHeight := s.height, orderer
          dir := if offer.denom = pair.base then .sell else .buy
          offerDenom := offer.denom
          demandDenom := if offer.denom = pair.base then pair.quote else pair.base
          offer := offerCoinAmount dir rprice amount, remaining := offerCoinAmount dir rprice amount, received := 0
          price := rprice, amount, openAmt := amount
          batchId := pair.batchId, expireAt := s.time + lifespan, status := .notExecuted }
  · intro x
    exact hw.ordersS.mem_upsert
  · intro q hq e1
    have : q = pair := hw.pairsS.inj hq hp (by simp only [Pair.key]; rw [e1]; rfl)
    subst this
    exact Nat.lt_succ_self _
  · intro k hf
    have hf' : ∀ q ∈ upsert Pair.key { pair with lastOrderId := pair.lastOrderId + 1 } s.pairs, q.id = k.1 → q.lastOrderId < k.2 := hf
    refine ⟨?_, ?_⟩
    · intro q hq e1
      by_cases e2 : q = pair
      · subst e2
        have := hf' _ (hw.pairsS.mem_upsert.2 (Or.inl rfl)) e1
        simp only at this
        omega
      · refine hf' q (hw.pairsS.mem_upsert.2 (Or.inr ⟨hq, fun e3 => e2 (hw.pairsS.inj hq hp e3)⟩)) e1
    · rintro rfl
      have := hf' _ (hw.pairsS.mem_upsert.2 (Or.inl rfl)) rfl
      simp [OrderRec.key] at this
  · simp only [List.foldl_cons, List.foldl_nil, readOrder, OrderRec.key]
    rw [if_pos ⟨hid.symm, trivial⟩]
    simp only [viewOf, f1, f2, g6]
  · intro k t hne
    refine foldl_still (fun ev hev t2 => ?_)
    simp only [List.mem_singleton] at hev
    subst hev
    simp only [readOrder]
    rw [if_neg (hk k hne)]

theorem tells_depositMsg (h : TellsD s log) (hw : WF s) {m : MsgDeposit} (e : depositMsg m s = some s') :
    TellsD s' (log ++ depositEv m s) := by
  obtain ⟨pool, b, g1, _, rfl⟩ := depositMsg_form e
  obtain ⟨hp, hid⟩ := hw.getPool_iff.1 g1
  unfold depositEv
  rw [g1]
  simp only
  unfold TellsD at *
  refine Tells.add h (o := ?o) ?_ ?_ ?_ ?_ ?_
  case o => exact ⟨pool.lastDepositId + 1, m.poolId, s.height, m.depositor, m.coins, [], 0, .notExecuted⟩
  · intro x
    exact hw.depsS.mem_upsert
  · intro q hq e1
    have : q = pool := hw.poolsS.inj hq hp (by simp only [PoolRec.key]; rw [e1, hid]; rfl)
    subst this
    exact Nat.lt_succ_self _
  · intro k hf
    have hf' : ∀ q ∈ upsert PoolRec.key { pool with lastDepositId := pool.lastDepositId + 1 } s.pools, q.id = k.1 →
      q.lastDepositId < k.2 := hf
    refine ⟨?_, ?_⟩
    · intro q hq e1
      by_cases e2 : q = pool
      · subst e2
        have := hf' _ (hw.poolsS.mem_upsert.2 (Or.inl rfl)) e1
        simp only at this
        omega
      · refine hf' q (hw.poolsS.mem_upsert.2 (Or.inr ⟨hq, fun e3 => e2 (hw.poolsS.inj hq hp e3)⟩)) e1
    · rintro rfl
      have := hf' _ (hw.poolsS.mem_upsert.2 (Or.inl rfl)) hid
      simp [DepReq.key] at this
  · simp only [List.foldl_cons, List.foldl_nil, readDeposit, DepReq.key]
    rw [if_pos ⟨hid, trivial⟩]
    simp only [viewOfDeposit]
  · intro k t hne
    refine foldl_still (fun ev hev t2 => ?_)
    simp only [List.mem_singleton] at hev
    subst hev
    simp only [readDeposit]
    rw [if_neg]
    rintro ⟨e1, e2⟩
    exact hne (by simp only [DepReq.key]; rw [← hid, e1, e2])

theorem tells_withdrawMsg (h : TellsW s log) (hw : WF s) {m : MsgWithdraw} (e : withdrawMsg m s = some s') :
    TellsW s' (log ++ withdrawEv m s) := by
  obtain ⟨pool, b, g1, _, _, rfl⟩ := withdrawMsg_form e
  obtain ⟨hp, hid⟩ := hw.getPool_iff.1 g1
  unfold withdrawEv
  rw [g1]
  simp only
  unfold TellsW at *
  refine Tells.add h (o := ?o) ?_ ?_ ?_ ?_ ?_
  case o => exact ⟨pool.lastWithdrawId + 1, m.poolId, s.height, m.withdrawer, m.coin, [], .notExecuted⟩
  · intro x
    exact hw.wdsS.mem_upsert
  · intro q hq e1
    have : q = pool := hw.poolsS.inj hq hp (by simp only [PoolRec.key]; rw [e1, hid]; rfl)
    subst this
    exact Nat.lt_succ_self _
  · intro k hf
    have hf' : ∀ q ∈ upsert PoolRec.key { pool with lastWithdrawId := pool.lastWithdrawId + 1 } s.pools, q.id = k.1 →
      q.lastWithdrawId < k.2 := hf
    refine ⟨?_, ?_⟩
    · intro q hq e1
      by_cases e2 : q = pool
      · subst e2
        have := hf' _ (hw.poolsS.mem_upsert.2 (Or.inl rfl)) e1
        simp only at this
        omega
      · refine hf' q (hw.poolsS.mem_upsert.2 (Or.inr ⟨hq, fun e3 => e2 (hw.poolsS.inj hq hp e3)⟩)) e1
    · rintro rfl
      have := hf' _ (hw.poolsS.mem_upsert.2 (Or.inl rfl)) hid
      simp [WdReq.key] at this
  · simp only [List.foldl_cons, List.foldl_nil, readWithdraw, WdReq.key]
    rw [if_pos ⟨hid, trivial⟩]
    simp only [viewOfWithdraw]
  · intro k t hne
    refine foldl_still (fun ev hev t2 => ?_)
    simp only [List.mem_singleton] at hev
    subst hev
    simp only [readWithdraw]
    rw [if_neg]
    rintro ⟨e1, e2⟩
    exact hne (by simp only [WdReq.key]; rw [← hid, e1, e2])

/-! ## A step -/

theorem txEv_refused {valid : Bool} {handler : State → Option State} {f : State → List Event}
    (h : valid = false ∨ handler s = none) : txEv valid handler f s = [] ∧ tx valid handler s = s := by
  unfold txEv tx
  rcases h with h | h
  · simp [h]
  · rw [h]; simp

/-- A transaction is refused without a trace or handled with its events. -/
theorem txEv_cases {valid : Bool} {handler : State → Option State} {f : State → List Event} :
    (txEv valid handler f s = [] ∧ tx valid handler s = s) ∨
      (∃ t, handler s = some t ∧ tx valid handler s = t ∧ txEv valid handler f s = f s) := by
  unfold txEv tx
  cases valid with
  | false => left; simp
  | true =>
    cases h : handler s with
    | none => left; simp
    | some t => right; exact ⟨t, rfl, by simp, by simp⟩

theorem step_evolves (hw : WF s) {op : Op} (h : step env op s = some s') : Evolves s s' :=
  run_evolves (env := env) (ops := [op]) hw (by simp [Dex.run, h])

theorem effect_orders_other {op : Op} (h : Effect env s s' op) (h1 : ∀ m, op ≠ .limitOrder m) (h2 : ∀ m, op ≠ .marketOrder m)
    (h3 : ∀ m, op ≠ .mmOrder m) (h4 : ∀ m, op ≠ .cancelOrder m) (h5 : ∀ m, op ≠ .cancelAllOrders m) : s'.orders = s.orders := by
  cases h with
  | same _ h => rw [h]
  | pair m b hb h => rw [h]; rfl
  | pool m pr cs mt h => exact h.rest.2.2.2.2.2.1
  | ranged m pr cs mt h => exact h.rest.2.2.2.2.2.1
  | deposit m p r h => exact h.rest.2.2.2.2.2.1
  | withdraw m p r h => exact h.rest.2.2.2.2.2.1
  | order _ hop p o h _ =>
    rcases hop with ⟨m, rfl⟩ | ⟨m, rfl⟩ | ⟨m, rfl⟩
    · exact absurd rfl (h1 m)
    · exact absurd rfl (h2 m)
    · exact absurd rfl (h3 m)
  | cancel _ hop hf hs ho hl =>
    rcases hop with ⟨m, rfl⟩ | ⟨m, rfl⟩
    · exact absurd rfl (h4 m)
    · exact absurd rfl (h5 m)
  | transfer src dst cs b hb h => rw [h]
  | params p hv h => rw [h]

theorem tells_step_order (h : TellsO s log) (hd : TellsD s log) (hwd : TellsW s log) (hw : WF s) {op : Op}
    (e : step env op s = some s') : TellsO s' (log ++ stepEv env op s) := by
  have hev := step_evolves hw e
  have hother : ∀ {op : Op}, step env op s = some s' → (∀ a b, op ≠ .beginBlock a b) → op ≠ .endBlock → (∀ m, op ≠ .limitOrder m) →
      (∀ m, op ≠ .marketOrder m) → (∀ m, op ≠ .mmOrder m) → (∀ m, op ≠ .cancelOrder m) → (∀ m, op ≠ .cancelAllOrders m) →
      TellsO s' (log ++ stepEv env op s) := fun e a1 a2 a3 a4 a5 a6 a7 =>
    h.neutral hev (effect_orders_other (step_effect hw a1 a2 e) a3 a4 a5 a6 a7) (topic_other_order a3 a4 a5 a6 a7 a2)
  cases op with
  | limitOrder m =>
    cases e
    rcases txEv_cases (valid := m.validateBasic) (handler := Dex.limitOrder m)
      (f := placeOrderEv .limit m.orderer m.pairId m.dir m.offer m.demand m.price m.amt m.lifespan) (s := s) with ⟨a, b⟩ | ⟨t, a, b, c⟩
    · simp only [stepEv]; rw [a, b, List.append_nil]; exact h
    · simp only [stepEv]; rw [c, b]; exact tells_place h hw a
  | marketOrder m =>
    cases e
    rcases txEv_cases (valid := m.validateBasic) (handler := Dex.marketOrder m)
      (f := placeOrderEv .market m.orderer m.pairId m.dir m.offer m.demand 0 m.amt m.lifespan) (s := s) with ⟨a, b⟩ | ⟨t, a, b, c⟩
    · simp only [stepEv]; rw [a, b, List.append_nil]; exact h
    · simp only [stepEv]; rw [c, b]; exact tells_place h hw a
  | mmOrder m =>
    cases e
    rcases txEv_cases (valid := m.validateBasicMM) (handler := Dex.mmOrder m)
      (f := placeOrderEv .mm m.orderer m.pairId m.dir m.offer m.demand m.price m.amt m.lifespan) (s := s) with ⟨a, b⟩ | ⟨t, a, b, c⟩
    · simp only [stepEv]; rw [a, b, List.append_nil]; exact h
    · simp only [stepEv]; rw [c, b]
      unfold Dex.mmOrder at a
      simp only at a
      split at a
      · cases a
      · rw [Option.map_eq_some_iff] at a
        obtain ⟨t', a1, rfl⟩ := a
        exact (tells_place h hw a1).same evolves_numMM rfl
  | cancelOrder m =>
    cases e
    rcases txEv_cases (valid := m.validateBasic) (handler := Dex.cancelOrder m) (f := cancelOrderEv m) (s := s) with ⟨a, b⟩ | ⟨t, a, b, c⟩
    · simp only [stepEv]; rw [a, b, List.append_nil]; exact h
    · simp only [stepEv]; rw [c, b]; exact tells_cancelOrder h hw a
  | cancelAllOrders m =>
    cases e
    rcases txEv_cases (valid := m.validateBasic) (handler := Dex.cancelAllOrders m) (f := cancelAllEv m) (s := s) with ⟨a, b⟩ | ⟨t, a, b, c⟩
    · simp only [stepEv]; rw [a, b, List.append_nil]; exact h
    · simp only [stepEv]; rw [c, b]; exact tells_cancelAll h hw a
  | endBlock =>
    simp only [step, endBlock] at e
    simp only [stepEv, endBlockEv]
    split at e
    · cases e
    · rename_i c1
      rw [if_neg c1]
      split at e
      · rename_i c2
        rw [if_pos c2]
        exact (tells_requests h hd hwd hw e).1
      · rename_i c2
        rw [if_neg c2, List.append_nil]
        cases e
        exact h
  | beginBlock a b =>
    cases e
    simp only [stepEv, List.append_nil]
    unfold TellsO at *
    refine Tells.drop h (P := fun o => !o.status.shouldBeDeleted) (freshOrder_back hev) (fun o ho hP => ?_)
    exact viewOf_closed (by unfold OrderRec.done; simpa using hP)
  | createPair m => exact hother e (by simp) (by simp) (by simp) (by simp) (by simp) (by simp) (by simp)
  | createPool m => exact hother e (by simp) (by simp) (by simp) (by simp) (by simp) (by simp) (by simp)
  | createRangedPool m => exact hother e (by simp) (by simp) (by simp) (by simp) (by simp) (by simp) (by simp)
  | deposit m => exact hother e (by simp) (by simp) (by simp) (by simp) (by simp) (by simp) (by simp)
  | withdraw m => exact hother e (by simp) (by simp) (by simp) (by simp) (by simp) (by simp) (by simp)
  | transfer a b c => exact hother e (by simp) (by simp) (by simp) (by simp) (by simp) (by simp) (by simp)
  | setParams p => exact hother e (by simp) (by simp) (by simp) (by simp) (by simp) (by simp) (by simp)

theorem tells_step_deposit (h : TellsO s log) (hd : TellsD s log) (hwd : TellsW s log) (hw : WF s) {op : Op}
    (e : step env op s = some s') : TellsD s' (log ++ stepEv env op s) := by
  have hev := step_evolves hw e
  by_cases c1 : ∃ m, op = .deposit m
  · obtain ⟨m, rfl⟩ := c1
    cases e
    rcases txEv_cases (valid := m.validateBasic) (handler := depositMsg m) (f := depositEv m) (s := s) with ⟨a, b⟩ | ⟨t, a, b, c⟩
    · simp only [stepEv]; rw [a, b, List.append_nil]; exact hd
    · simp only [stepEv]; rw [c, b]; exact tells_depositMsg hd hw a
  by_cases c2 : op = .endBlock
  · subst c2
    simp only [step, endBlock] at e
    simp only [stepEv, endBlockEv]
    split at e
    · cases e
    · rename_i c1
      rw [if_neg c1]
      split at e
      · rename_i c2
        rw [if_pos c2]
        exact (tells_requests h hd hwd hw e).2.1
      · rename_i c2
        rw [if_neg c2, List.append_nil]
        cases e
        exact hd
  by_cases c3 : ∃ a b, op = .beginBlock a b
  · obtain ⟨a, b, rfl⟩ := c3
    cases e
    simp only [stepEv, List.append_nil]
    unfold TellsD at *
    refine Tells.drop hd (P := fun r => !r.status.shouldBeDeleted) (freshDeposit_back hev) (fun r hr hP => ?_)
    unfold KnownDeposit.Closed viewOfDeposit
    cases e : r.status <;> simp [e, ReqStatus.shouldBeDeleted] at hP ⊢
  push Not at c1 c3
  exact hd.neutral hev (effect_deposits (step_effect hw c3 c2 e) c1) (topic_other_deposit c1 c2)

theorem tells_step_withdraw (h : TellsO s log) (hd : TellsD s log) (hwd : TellsW s log) (hw : WF s) {op : Op}
    (e : step env op s = some s') : TellsW s' (log ++ stepEv env op s) := by
  have hev := step_evolves hw e
  by_cases c1 : ∃ m, op = .withdraw m
  · obtain ⟨m, rfl⟩ := c1
    cases e
    rcases txEv_cases (valid := m.validateBasic) (handler := withdrawMsg m) (f := withdrawEv m) (s := s) with ⟨a, b⟩ | ⟨t, a, b, c⟩
    · simp only [stepEv]; rw [a, b, List.append_nil]; exact hwd
    · simp only [stepEv]; rw [c, b]; exact tells_withdrawMsg hwd hw a
  by_cases c2 : op = .endBlock
  · subst c2
    simp only [step, endBlock] at e
    simp only [stepEv, endBlockEv]
    split at e
    · cases e
    · rename_i c1
      rw [if_neg c1]
      split at e
      · rename_i c2
        rw [if_pos c2]
        exact (tells_requests h hd hwd hw e).2.2
      · rename_i c2
        rw [if_neg c2, List.append_nil]
        cases e
        exact hwd
  by_cases c3 : ∃ a b, op = .beginBlock a b
  · obtain ⟨a, b, rfl⟩ := c3
    cases e
    simp only [stepEv, List.append_nil]
    unfold TellsW at *
    refine Tells.drop hwd (P := fun r => !r.status.shouldBeDeleted) (freshWithdraw_back hev) (fun r hr hP => ?_)
    unfold KnownWithdraw.Closed viewOfWithdraw
    cases e : r.status <;> simp [e, ReqStatus.shouldBeDeleted] at hP ⊢
  push Not at c1 c3
  exact hwd.neutral hev (effect_withdraws (step_effect hw c3 c2 e) c1) (topic_other_withdraw c1 c2)

theorem tells_run : ∀ {ops : List Op} {s s' : State} {log : List Event}, WF s → TellsO s log → TellsD s log → TellsW s log →
    run env ops s = some s' →
    TellsO s' (log ++ runEv env ops s) ∧ TellsD s' (log ++ runEv env ops s) ∧ TellsW s' (log ++ runEv env ops s) := by
  intro ops
  induction ops with
  | nil =>
    intro s s' log _ h1 h2 h3 e
    cases e
    simp only [runEv, List.append_nil]
    exact ⟨h1, h2, h3⟩
  | cons op ops ih =>
    intro s s' log hw h1 h2 h3 e
    simp only [Dex.run, Option.bind_eq_some_iff] at e
    obtain ⟨t, e1, e2⟩ := e
    have := ih (step_wf hw e1) (tells_step_order h1 h2 h3 hw e1) (tells_step_deposit h1 h2 h3 hw e1) (tells_step_withdraw h1 h2 h3 hw e1) e2
    simp only [runEv, e1]
    simpa only [List.append_assoc] using this

theorem tells_empty {ρ α : Type} {rd : Key → Told α → Event → Told α} {key : ρ → Key} {view : ρ → α} {Cl : α → Prop} {F : Key → Prop} :
    Tells rd key view Cl [] F [] where
  here := by simp
  gone := fun _ _ => Or.inl rfl
  new := fun _ _ => rfl

theorem tells_history {ops : List Op} {s0 : State} (hg : Genesis s0) (h : run env ops s0 = some s') :
    TellsO s' (runEv env ops s0) ∧ TellsD s' (runEv env ops s0) ∧ TellsW s' (runEv env ops s0) := by
  have := tells_run (log := []) (genesis_wf hg) (by unfold TellsO; rw [hg.orders]; exact tells_empty)
    (by unfold TellsD; rw [hg.deposits]; exact tells_empty) (by unfold TellsW; rw [hg.withdraws]; exact tells_empty) h
  simpa using this

end Verif.Dex

import Verif.Proofs.History
import Verif.Proofs.Example
/-! # Safety over whole histories: escrow, counters, ids, pool lifecycle (C37, C39, C40, C41, C44) -/
namespace Verif.Props
open Verif Verif.Amm Verif.Dex Verif.Spec

/-! ## C37 -/

/-- C37: in every reachable state the global escrow account holds at least the coins of all unexecuted deposit requests plus
the pool coins of all unexecuted withdraw requests. -/
theorem C37_global_escrow_solvent {env : Env} {s : State} (hs : Reachable env s) (d : Denom) :
    depositsPending s d + withdrawsPending s d ≤ s.bank.bal .globalEscrow d := by
  refine le_trans (le_of_eq ?_) (hs.wf.escrow d)
  unfold depositsPending withdrawsPending pendingDeposits pendingWithdraws total
  congr 2
  apply List.map_congr_left
  intro r _
  by_cases h1 : r.status = .notExecuted <;> simp [h1, amountOf]

/-- A chain with a pending deposit of 100000 units. -/
example : ∃ s, Reachable Demo.env s ∧ depositsPending s (.native 0) = 100000 ∧ s.bank.bal .globalEscrow (.native 0) = 100000 :=
  Demo.reach Demo.placed _ (by decide +kernel)

/-! ## C39 -/

/-- C39: an order that is completed, cancelled or expired never changes again: in every later state of the chain, an order
with its pair and id is the very same record. -/
theorem C39_finished_never_changes {env : Env} {s s' : State} (hs : Reachable env s) {ops : List Op} (h : run env ops s = some s')
    {o o' : OrderRec} (ho : o ∈ s.orders) (hf : ¬ Unfinished o) (ho' : o' ∈ s'.orders) (hp : o'.pairId = o.pairId) (hi : o'.id = o.id) :
    o' = o := by
  obtain ⟨_, _, p, hp1, e1, e2, _⟩ := hs.wf.ords o ho
  obtain ⟨o0, h0, h1, h2⟩ := (run_evolves hs.wf h).orders o' ho' p hp1 (by rw [e1, hp]) (by rw [hi]; exact e2)
  have : o0 = o := hs.wf.ordersS.inj h0 ho (by rw [← h1.key]; simp [OrderRec.key, hp, hi])
  subst this
  refine h2 ?_
  by_contra hc
  exact hf ((done_iff o0).1 (by simpa using hc))

/-- C39: finishing a finished order again does nothing, whatever status is asked for: no second refund. -/
theorem C39_finish_is_idempotent {s s' : State} {o : OrderRec} (hf : ¬ Unfinished o) {status : OStatus}
    (h : finishOrder o status s = some s') : s' = s := by
  refine finishOrder_done ?_ h
  by_contra hc
  exact hf ((done_iff o).1 (by simpa using hc))

/-- C39: finishing an unfinished order marks it, pays back exactly its remaining offer coin to its owner and changes no other
order, balance, request, pair or pool. -/
theorem C39_finish_refunds_remaining {env : Env} {s s' : State} (hs : Reachable env s) {o : OrderRec} (ho : o ∈ s.orders)
    (hu : Unfinished o) {status : OStatus} (h : finishOrder o status s = some s') :
    Moved s.bank s'.bank (.pairEscrow o.pairId) (.user o.orderer) o.offerDenom o.remaining ∧
    (∀ x, x ∈ s'.orders ↔ x = { o with status } ∨ (x ∈ s.orders ∧ x ≠ o)) ∧ SameFrame s s' := by
  have hd := (done_iff o).2 hu
  refine ⟨finishOrder_effect hs.wf hd (hs.wf.ordsOk o ho).1 h, ?_, finishOrder_same hd h⟩
  intro x
  rw [show s'.orders = _ from (finishOrder_frame hd h).1]
  exact hs.wf.mem_setOrder ho rfl

/-- C39: the start of a block deletes exactly the finished orders and the executed requests, and nothing else. -/
theorem C39_block_start_deletes (s : State) (height : Nat) (time : Int) :
    (∀ o, o ∈ (beginBlock height time s).orders ↔ o ∈ s.orders ∧ Unfinished o) ∧
    (∀ r, r ∈ (beginBlock height time s).deposits ↔ r ∈ s.deposits ∧ r.status = .notExecuted) ∧
    (∀ r, r ∈ (beginBlock height time s).withdraws ↔ r ∈ s.withdraws ∧ r.status = .notExecuted) ∧
    (beginBlock height time s).bank = s.bank ∧ (beginBlock height time s).pairs = s.pairs ∧
    (beginBlock height time s).pools = s.pools ∧ (beginBlock height time s).numMM = s.numMM ∧
    (beginBlock height time s).params = s.params ∧
    (beginBlock height time s).lastPairId = s.lastPairId ∧ (beginBlock height time s).lastPoolId = s.lastPoolId := by
  refine ⟨?_, ?_, ?_, rfl, rfl, rfl, rfl, rfl, rfl, rfl⟩
  · intro o
    unfold beginBlock deleteOutdated
    rw [List.mem_filter, ← done_iff, OrderRec.done]
    simp
  · intro r
    unfold beginBlock deleteOutdated
    rw [List.mem_filter]
    cases r.status <;> simp [ReqStatus.shouldBeDeleted]
  · intro r
    unfold beginBlock deleteOutdated
    rw [List.mem_filter]
    cases r.status <;> simp [ReqStatus.shouldBeDeleted]

/-- C39: nothing but the start of a block deletes an order or a request, and no step changes the terms of one. -/
theorem C39_nothing_else_deletes {env : Env} {s s' : State} (hs : Reachable env s) {op : Op} (hop : ∀ a b, op ≠ .beginBlock a b)
    (h : step env op s = some s') :
    (∀ o ∈ s.orders, ∃ o' ∈ s'.orders, SameTerms o o') ∧ (∀ r ∈ s.deposits, ∃ r' ∈ s'.deposits, SameDeposit r r') ∧
    (∀ r ∈ s.withdraws, ∃ r' ∈ s'.withdraws, SameWithdraw r r') := by
  rcases step_cases hs.wf h with h | ⟨p, rfl, _, rfl⟩ | ⟨a, b, rfl, _⟩
  · have k := reach_keeps hs.wf h
    refine ⟨fun o ho => ?_, k.deps, k.wds⟩
    obtain ⟨o', h1, h2⟩ := k.orders o ho
    exact ⟨o', h1, sameTerms_iff.2 h2⟩
  · exact ⟨fun o ho => ⟨o, ho, rfl⟩, fun o ho => ⟨o, ho, rfl⟩, fun o ho => ⟨o, ho, rfl⟩⟩
  · exact absurd rfl (hop a b)

/-- After a batch the demo chain has a completed order, one with an open amount and an executed deposit request; they are
still there (unchanged) after a further message and disappear at the next block start. -/
example : ∃ s, Reachable Demo.env s ∧ (s.orders.map (·.status) = [.completed, .partiallyMatched] ∧ s.deposits.length = 1 ∧
    ((run Demo.env [.cancelOrder ⟨2, 1, 1⟩] s).map fun s' => s'.orders.map (·.status)) = some [.completed, .partiallyMatched] ∧
    (beginBlock 2 50 s).orders.map (·.status) = [.partiallyMatched] ∧ (beginBlock 2 50 s).deposits = []) :=
  Demo.reach (Demo.placed ++ [.endBlock]) _ (by decide +kernel)

/-! ## C40 -/

/-- C40: in every reachable state the counter of market-making orders of an account on a pair is the number of its unfinished
market-making orders there, and no counter is stored if there are none. -/
theorem C40_mm_counter {env : Env} {s : State} (hs : Reachable env s) (account pairId : Nat) :
    s.getNumMM account pairId = unfinishedMM s account pairId ∧
    (s.numMM account pairId = none ↔ unfinishedMM s account pairId = 0) := by
  have := hs.wf.mm account pairId
  rw [liveMM_spec] at this
  unfold State.getNumMM
  by_cases e : unfinishedMM s account pairId = 0
  · rw [if_pos e] at this; simp [this, e]
  · rw [if_neg e] at this; simp [this, e]

/-- C40: the number of unfinished market-making orders never exceeds the largest cap that was in force. -/
theorem C40_mm_cap {env : Env} {s : State} {cap : Nat} (hs : ReachableWith env (fun p => p.maxNumMMOrders ≤ cap) s)
    (account pairId : Nat) : unfinishedMM s account pairId ≤ cap := by
  obtain ⟨s0, ops, h0, h1, h2, h3⟩ := hs
  have hb : MMBound cap s0 := by
    intro a p
    unfold State.getNumMM
    rw [h0.numMM]; simp
  have := mm_run (genesis_wf h0) h1 h2 hb h3 account pairId
  rw [(C40_mm_counter ⟨s0, ops, h0, h3⟩ account pairId).1] at this
  exact this

/-- A chain with one market-making order. -/
example : ∃ s, Reachable Demo.env s ∧ (s.getNumMM 2 1 = 1 ∧ unfinishedMM s 2 1 = 1) := Demo.reach Demo.placed _ (by decide +kernel)
/-- It satisfies the hypothesis of `C40_mm_cap`. -/
example : ∃ s, ReachableWith Demo.env (fun p => p.maxNumMMOrders ≤ 10) s ∧ unfinishedMM s 2 1 = 1 := by
  have h : ((run Demo.env Demo.placed Demo.s0).map fun s => decide (unfinishedMM s 2 1 = 1)) = some true := by decide +kernel
  rw [Option.map_eq_some_iff] at h
  obtain ⟨s, hs, e⟩ := h
  refine ⟨s, ⟨_, _, Demo.genesis, by decide, ?_, hs⟩, of_decide_eq_true e⟩
  intro p hp
  simp [Demo.placed] at hp

/-! ## C41 -/

/-- C41: the ids of the pairs are 1, 2, …, up to the last id given, without gap or repetition; the same for the pools. -/
theorem C41_pair_and_pool_ids {env : Env} {s : State} (hs : Reachable env s) :
    s.pairs.map (·.id) = List.range' 1 s.lastPairId ∧ s.pools.map (·.id) = List.range' 1 s.lastPoolId :=
  ⟨hs.wf.pair_range, hs.wf.pool_range⟩

/-- C41: at most one pair exists for each (base, quote). -/
theorem C41_pairs_unique {env : Env} {s : State} (hs : Reachable env s) {p q : Pair} (hp : p ∈ s.pairs) (hq : q ∈ s.pairs)
    (hb : p.base = q.base) (hqt : p.quote = q.quote) : p = q :=
  hs.wf.key_pair hp hq (hs.wf.pairUniq p hp q hq hb hqt)

/-- C41: an order is determined by its pair and its id, a request by its pool and its id; ids start at 1 and do not exceed
the last id given. -/
theorem C41_ids_unique {env : Env} {s : State} (hs : Reachable env s) :
    (∀ a ∈ s.orders, ∀ b ∈ s.orders, a.pairId = b.pairId → a.id = b.id → a = b) ∧
    (∀ a ∈ s.deposits, ∀ b ∈ s.deposits, a.poolId = b.poolId → a.id = b.id → a = b) ∧
    (∀ a ∈ s.withdraws, ∀ b ∈ s.withdraws, a.poolId = b.poolId → a.id = b.id → a = b) ∧
    (∀ a ∈ s.orders, ∃ p ∈ s.pairs, p.id = a.pairId ∧ 1 ≤ a.id ∧ a.id ≤ p.lastOrderId) ∧
    (∀ a ∈ s.deposits, ∃ p ∈ s.pools, p.id = a.poolId ∧ 1 ≤ a.id ∧ a.id ≤ p.lastDepositId) ∧
    (∀ a ∈ s.withdraws, ∃ p ∈ s.pools, p.id = a.poolId ∧ 1 ≤ a.id ∧ a.id ≤ p.lastWithdrawId) := by
  have hw := hs.wf
  refine ⟨fun a ha b hb e1 e2 => hw.ordersS.inj ha hb (by simp [OrderRec.key, e1, e2]),
    fun a ha b hb e1 e2 => hw.depsS.inj ha hb (by simp [DepReq.key, e1, e2]),
    fun a ha b hb e1 e2 => hw.wdsS.inj ha hb (by simp [WdReq.key, e1, e2]), ?_, ?_, ?_⟩
  · intro a ha
    obtain ⟨h1, _, p, hp, e1, e2, _⟩ := hw.ords a ha
    exact ⟨p, hp, e1, h1, e2⟩
  · intro a ha
    obtain ⟨h1, ⟨p, hp, e1, e2⟩, _⟩ := hw.deps a ha
    exact ⟨p, hp, e1, h1, e2⟩
  · intro a ha
    obtain ⟨h1, ⟨p, hp, e1, e2⟩, _⟩ := hw.wds a ha
    exact ⟨p, hp, e1, h1, e2⟩

/-- C41: ids are never reused, even after deletion.  Whatever happens after a state `s`, an object with an id that had been
given out in `s` is the same object as in `s` (with the same terms). -/
theorem C41_ids_never_reused {env : Env} {s s' : State} (hs : Reachable env s) {ops : List Op} (h : run env ops s = some s') :
    (∀ o ∈ s'.orders, ∀ p ∈ s.pairs, p.id = o.pairId → o.id ≤ p.lastOrderId → ∃ o0 ∈ s.orders, SameTerms o0 o) ∧
    (∀ r ∈ s'.deposits, ∀ p ∈ s.pools, p.id = r.poolId → r.id ≤ p.lastDepositId → ∃ r0 ∈ s.deposits, SameDeposit r0 r) ∧
    (∀ r ∈ s'.withdraws, ∀ p ∈ s.pools, p.id = r.poolId → r.id ≤ p.lastWithdrawId → ∃ r0 ∈ s.withdraws, SameWithdraw r0 r) ∧
    (∀ p ∈ s.pairs, ∃ p' ∈ s'.pairs, p'.id = p.id ∧ p'.base = p.base ∧ p'.quote = p.quote ∧ p.lastOrderId ≤ p'.lastOrderId) ∧
    (∀ p ∈ s.pools, ∃ p' ∈ s'.pools, p'.id = p.id ∧ p'.pairId = p.pairId ∧ p'.creator = p.creator ∧ p'.range = p.range ∧
      p.lastDepositId ≤ p'.lastDepositId ∧ p.lastWithdrawId ≤ p'.lastWithdrawId) ∧
    s.lastPairId ≤ s'.lastPairId ∧ s.lastPoolId ≤ s'.lastPoolId := by
  have e := run_evolves hs.wf h
  refine ⟨?_, ?_, ?_, ?_, ?_, e.lastPair, e.lastPool⟩
  · intro o ho p hp h1 h2
    obtain ⟨o0, k1, k2, _⟩ := e.orders o ho p hp h1 h2
    exact ⟨o0, k1, sameTerms_iff.2 k2⟩
  · intro o ho p hp h1 h2
    obtain ⟨o0, k1, k2, _⟩ := e.deps o ho p hp h1 h2
    exact ⟨o0, k1, sameDeposit_of k2⟩
  · intro o ho p hp h1 h2
    obtain ⟨o0, k1, k2, _⟩ := e.wds o ho p hp h1 h2
    exact ⟨o0, k1, sameWithdraw_of k2⟩
  · intro p hp
    obtain ⟨q, h1, h2, h3, h4, h5, _⟩ := e.pairs p hp
    exact ⟨q, h1, h2, h3, h4, h5⟩
  · intro p hp
    obtain ⟨q, h1, h2, h3, h4, h5, h6, h7, _⟩ := e.pools p hp
    exact ⟨q, h1, h2, h3, h4, h5, h6, h7⟩

/-- C41: a new pair gets the next id; the pair for (base, quote) did not exist. -/
theorem C41_create_pair {env : Env} {s s' : State} (hs : Reachable env s) {m : MsgCreatePair} (h : createPair m s = some s') :
    (∀ p ∈ s.pairs, ¬ (p.base = m.base ∧ p.quote = m.quote)) ∧ s'.lastPairId = s.lastPairId + 1 ∧
    (∀ p, p ∈ s'.pairs ↔ p ∈ s.pairs ∨ p = ⟨s.lastPairId + 1, m.base, m.quote, 0, none, 1⟩) ∧
    s'.pools = s.pools ∧ s'.orders = s.orders ∧ s'.deposits = s.deposits ∧ s'.withdraws = s.withdraws := by
  unfold createPair at h
  split at h
  · cases h
  · rename_i hn
    split at h
    · cases h
    · rename_i b hb
      simp only at h
      have h := Option.some.inj h
      subst h
      refine ⟨?_, rfl, ?_, rfl, rfl, rfl, rfl⟩
      · intro p hp
        unfold State.getPairByDenoms at hn
        rw [List.find?_eq_none] at hn
        have := hn p hp
        simpa using this
      · intro p
        show p ∈ upsert Pair.key _ s.pairs ↔ _
        rw [hs.wf.pairsS.mem_upsert]
        constructor
        · rintro (e | ⟨e, _⟩)
          · exact Or.inr e
          · exact Or.inl e
        · rintro (e | e)
          · refine Or.inr ⟨e, ?_⟩
            intro hk
            have := (hs.wf.pairIds p e).2
            simp only [Pair.key, newPair, Prod.mk.injEq] at hk
            omega
          · exact Or.inl e

/-- Two pairs with the same coins in both orders, ids 1 and 2; a second pair with the same (base, quote) is rejected. -/
example : ∃ s, Reachable Demo.env s ∧ (s.pairs.map (·.id) = [1, 2] ∧ s.lastPairId = 2 ∧ (createPair ⟨3, .native 1, .native 0⟩ s).isNone ∧
    (createPair ⟨3, .native 1, .native 5⟩ s).isSome) :=
  Demo.reach [.createPair ⟨1, .native 0, .native 1⟩, .createPair ⟨2, .native 1, .native 0⟩, .createPair ⟨3, .native 1, .native 0⟩] _
    (by decide +kernel)
/-- A chain on which orders have been deleted before further ones are placed: order 1 is gone, the new one has id 3. -/
example : ∃ s, Reachable Demo.env s ∧ (s.orders.map (·.id) = [2, 3] ∧ s.pairs.map (·.lastOrderId) = [3]) :=
  Demo.reach (Demo.traded ++ [.limitOrder ⟨2, 1, .buy, ⟨.native 1, 30000⟩, .native 0, 980000000000000000, 30000, 100⟩]) _ (by decide +kernel)

/-! ## C44 -/

/-- C44: a disabled pool stays disabled in every later state, with the same identity. -/
theorem C44_disabled_forever {env : Env} {s s' : State} (hs : Reachable env s) {ops : List Op} (h : run env ops s = some s')
    {p p' : PoolRec} (hp : p ∈ s.pools) (hp' : p' ∈ s'.pools) (hid : p'.id = p.id) (hd : p.disabled = true) : p'.disabled = true := by
  obtain ⟨q, h1, h2, _, _, _, _, _, h3⟩ := (run_evolves hs.wf h).pools p hp
  have : q = p' := (hs.run h).wf.key_pool h1 hp' (by rw [h2, hid])
  rw [← this]
  exact h3 hd

/-- C44: a disabled pool accepts no deposit and no withdrawal. -/
theorem C44_disabled_rejects {env : Env} {s : State} (hs : Reachable env s) {p : PoolRec} (hp : p ∈ s.pools) (hd : p.disabled = true) :
    (∀ m : MsgDeposit, m.poolId = p.id → step env (.deposit m) s = some s) ∧
    (∀ m : MsgWithdraw, m.poolId = p.id → step env (.withdraw m) s = some s) := by
  have hg := hs.wf.getPool_iff.2 ⟨hp, rfl⟩
  constructor
  · intro m e
    have : depositMsg m s = none := by unfold depositMsg; rw [e, hg]; simp [hd]
    simp [step, tx, this]
  · intro m e
    have : withdrawMsg m s = none := by unfold withdrawMsg; rw [e, hg]; simp [hd]
    simp [step, tx, this]

/-- C44: in every reachable state a pair has at most one active basic pool. -/
theorem C44_one_active_basic_pool {env : Env} {s : State} (hs : Reachable env s) {p q : PoolRec} (hp : p ∈ s.pools) (hq : q ∈ s.pools)
    (hpair : p.pairId = q.pairId) (hpb : p.range = none) (hqb : q.range = none) (hpa : p.disabled = false) (hqa : q.disabled = false) :
    p = q := hs.wf.key_pool hp hq (hs.wf.basicUniq p hp q hq hpair hpb hqb hpa hqa)

/-- C44: in every reachable state an active pool has pool coins outstanding. -/
theorem C44_active_has_supply {env : Env} {s : State} (hs : Reachable env s) {p : PoolRec} (hp : p ∈ s.pools) (hpa : p.disabled = false) :
    0 < s.bank.supply (.pool p.id) := hs.wf.activeSupply p hp hpa

/-- C44: a pair never has more active pools than the largest cap that was in force. -/
theorem C44_active_pools_cap {env : Env} {s : State} {cap : Nat} (hs : ReachableWith env (fun p => p.maxNumActivePools ≤ cap) s)
    (pairId : Nat) : activePools s pairId ≤ cap := by
  obtain ⟨s0, ops, h0, h1, h2, h3⟩ := hs
  refine active_run (genesis_wf h0) h1 h2 ?_ h3 pairId
  intro pid
  unfold activePools
  rw [h0.pools]; simp

/-- A chain on which a pool has been disabled because all its coins were withdrawn, and a new basic pool was created. -/
example : ∃ s, Reachable Demo.env s ∧ (s.pools.map (fun p => (p.id, p.disabled)) = [(1, true), (2, false)] ∧ activePools s 1 = 1 ∧
    s.bank.supply (.pool 1) = 0 ∧ s.bank.supply (.pool 2) = 1000000000000) :=
  Demo.reach [.createPair ⟨1, .native 0, .native 1⟩, .createPool ⟨1, 1, [⟨.native 0, 2000000⟩, ⟨.native 1, 2000000⟩]⟩,
    .createPool ⟨1, 1, [⟨.native 0, 2000000⟩, ⟨.native 1, 2000000⟩]⟩, .withdraw ⟨1, 1, ⟨.pool 1, 1000000000000⟩⟩, .endBlock,
    .deposit ⟨1, 1, [⟨.native 0, 2000000⟩, ⟨.native 1, 2000000⟩]⟩, .createPool ⟨1, 1, [⟨.native 0, 2000000⟩, ⟨.native 1, 2000000⟩]⟩] _
    (by decide +kernel)

/-! ## C57 -/

/-- C57: creating a pair charges exactly the pair creation fee and changes no other balance. -/
theorem C57_create_pair_fee {s s' : State} {m : MsgCreatePair} (h : createPair m s = some s') :
    (∀ a d, s'.bank.bal a d = s.bank.bal a d + transferEffect ⟨.user m.creator, s.params.feeCollector, s.params.pairCreationFee⟩ a d) ∧
    s'.bank.supply = s.bank.supply ∧ s'.params = s.params ∧ s'.lastPoolId = s.lastPoolId ∧ s'.numMM = s.numMM ∧
    s'.height = s.height ∧ s'.time = s.time := by
  unfold createPair at h
  split at h
  · cases h
  · split at h
    · cases h
    · rename_i b hb
      simp only at h
      have h := Option.some.inj h
      subst h
      exact ⟨(send_some hb).2.2.2, (send_some hb).2.2.1, rfl, rfl, rfl, rfl, rfl⟩

end Verif.Props

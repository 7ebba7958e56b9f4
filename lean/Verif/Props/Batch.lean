import Verif.Proofs.BatchTrace
import Verif.Proofs.Effects
import Verif.Proofs.LedgerSteps
import Verif.Proofs.History
import Verif.Proofs.Example
/-! # Supply, requests, batches, accounting of balances (C42, C43, C45, C58, C60) -/
namespace Verif.Props
open Verif Verif.Amm Verif.Dex Verif.Spec

/-! ## C42 -/

/-- C42: no history changes the supply of a coin that is not a pool coin. -/
theorem C42_native_supply_constant {env : Env} {s s' : State} (hs : Reachable env s) {ops : List Op} (h : run env ops s = some s')
    (n : Nat) : s'.bank.supply (.native n) = s.bank.supply (.native n) := (run_evolves hs.wf h).native n

/-- C42: in every reachable state all balances are non-negative and the supply of every denom is the sum of the balances. -/
theorem C42_supply_is_sum {env : Env} {s : State} (hs : Reachable env s) (d : Denom) :
    (∀ a, 0 ≤ s.bank.bal a d) ∧
    ∃ accounts : Finset Addr, (∀ a, a ∉ accounts → s.bank.bal a d = 0) ∧ ∑ a ∈ accounts, s.bank.bal a d = s.bank.supply d :=
  ⟨fun a => hs.wf.bankNN a d, hs.wf.bankSum d⟩

/-- C42: besides pool creation and the end of a block nothing changes any supply. -/
theorem C42_other_steps_keep_supply {env : Env} {s s' : State} (hs : Reachable env s) {op : Op} (h : step env op s = some s')
    (h1 : ∀ m, op ≠ .createPool m) (h2 : ∀ m, op ≠ .createRangedPool m) (h3 : op ≠ .endBlock) : s'.bank.supply = s.bank.supply := by
  by_cases hb : ∃ a b, op = .beginBlock a b
  · obtain ⟨a, b, rfl⟩ := hb
    cases h
    rfl
  · exact effect_supply (step_effect hs.wf (fun a b e => hb ⟨a, b, e⟩) h3 h) h1 h2

/-- C42: creating a pool mints coins of the new pool and changes no other supply. -/
theorem C42_pool_creation_supply {env : Env} {s s' : State} (hs : Reachable env s) {op : Op} (h : step env op s = some s')
    (hop : (∃ m, op = .createPool m) ∨ (∃ m, op = .createRangedPool m)) :
    s' = s ∨ (s.bank.supply (.pool (s.lastPoolId + 1)) = 0 ∧ 0 < s'.bank.supply (.pool (s.lastPoolId + 1)) ∧
      s'.lastPoolId = s.lastPoolId + 1 ∧ ∀ d, d ≠ .pool (s.lastPoolId + 1) → s'.bank.supply d = s.bank.supply d) := by
  have key : ∀ {pair creator : Nat} {range : Option (Int × Int)} {coins : Coins} {minted : Int},
      PoolCreated pair creator range coins minted s s' → (s.bank.supply (.pool (s.lastPoolId + 1)) = 0 ∧
      0 < s'.bank.supply (.pool (s.lastPoolId + 1)) ∧
      s'.lastPoolId = s.lastPoolId + 1 ∧ ∀ d, d ≠ .pool (s.lastPoolId + 1) → s'.bank.supply d = s.bank.supply d) := by
    intro _ _ _ _ _ hc
    refine ⟨hc.noPrevious, ?_, hc.id, ?_⟩
    · rw [hc.supply, hc.noPrevious, if_pos rfl]; simpa using hc.mintedOk.1
    · intro d hd
      rw [hc.supply, if_neg hd]; simp
  have he : Effect env s s' op := by
    rcases hop with ⟨m, rfl⟩ | ⟨m, rfl⟩
    · exact step_effect hs.wf (fun a b e => by cases e) (by simp) h
    · exact step_effect hs.wf (fun a b e => by cases e) (by simp) h
  rcases hop with ⟨m, rfl⟩ | ⟨m, rfl⟩
  · cases he with
    | same _ e => exact Or.inl e
    | pool _ _ _ _ hc => exact Or.inr (key hc)
    | order _ hop => rcases hop with ⟨_, e⟩ | ⟨_, e⟩ | ⟨_, e⟩ <;> cases e
    | cancel _ hop => rcases hop with ⟨_, e⟩ | ⟨_, e⟩ <;> cases e
  · cases he with
    | same _ e => exact Or.inl e
    | ranged _ _ _ _ hc => exact Or.inr (key hc)
    | order _ hop => rcases hop with ⟨_, e⟩ | ⟨_, e⟩ | ⟨_, e⟩ <;> cases e
    | cancel _ hop => rcases hop with ⟨_, e⟩ | ⟨_, e⟩ <;> cases e

/-- A block end is a batch or nothing. -/
theorem endBlock_cases {env : Env} {s s' : State} (h : step env .endBlock s = some s') : s' = s ∨ executeRequests env s = some s' := by
  change endBlock env s = some s' at h
  unfold endBlock at h
  split at h
  · cases h
  · split at h
    · exact Or.inr h
    · cases h; exact Or.inl rfl

/-- C42: the end of a block changes the supply of a pool coin by exactly what the requests executed in it say: plus the minted
amounts of the deposits that succeeded, minus the amounts of the withdrawals that succeeded. -/
theorem C42_batch_supply {env : Env} {s s' : State} (hs : Reachable env s) (h : step env .endBlock s = some s') (id : Nat) :
    s'.bank.supply (.pool id) - s.bank.supply (.pool id) = mintedByRequests s' id - mintedByRequests s id := by
  rcases endBlock_cases h with rfl | h
  · omega
  · have := (batch_facts hs.wf hs.clean h).supply id
    omega

/-- A chain in which a batch mints pool coins. -/
example : ∃ s, Reachable Demo.env s ∧ (s.bank.supply (.native 0) = 3000000000 ∧ s.bank.supply (.pool 1) = 1000000000000 ∧
    mintedByRequests s 1 = 0 ∧ ((step Demo.env .endBlock s).map fun s' => (s'.bank.supply (.pool 1), mintedByRequests s' 1, s'.bank.supply (.native 0)))
      = some (1025252525252, 25252525252, 3000000000)) := Demo.reach Demo.placed _ (by decide +kernel)

/-! ## C43 -/

/-- C43: a deposit message is refused without any effect, or accepted: the coins go to the global escrow and a new pending
request is stored. -/
theorem C43_deposit_message {env : Env} {s s' : State} (hs : Reachable env s) {m : MsgDeposit} (h : step env (.deposit m) s = some s') :
    s' = s ∨ ∃ p r, DepositAccepted m p r s s' := by
  have he : Effect env s s' (.deposit m) := step_effect hs.wf (fun a b e => by cases e) (by simp) h
  cases he with
  | same _ e => exact Or.inl e
  | deposit _ p r hc => exact Or.inr ⟨p, r, hc⟩
  | order _ hop => rcases hop with ⟨_, e⟩ | ⟨_, e⟩ | ⟨_, e⟩ <;> cases e
  | cancel _ hop => rcases hop with ⟨_, e⟩ | ⟨_, e⟩ <;> cases e

/-- C43: the same for a withdraw message. -/
theorem C43_withdraw_message {env : Env} {s s' : State} (hs : Reachable env s) {m : MsgWithdraw} (h : step env (.withdraw m) s = some s') :
    s' = s ∨ ∃ p r, WithdrawAccepted m p r s s' := by
  have he : Effect env s s' (.withdraw m) := step_effect hs.wf (fun a b e => by cases e) (by simp) h
  cases he with
  | same _ e => exact Or.inl e
  | withdraw _ p r hc => exact Or.inr ⟨p, r, hc⟩
  | order _ hop => rcases hop with ⟨_, e⟩ | ⟨_, e⟩ | ⟨_, e⟩ <;> cases e
  | cancel _ hop => rcases hop with ⟨_, e⟩ | ⟨_, e⟩ <;> cases e

/-- C43: until the end of the block a pending request stays as it is: no message, transfer, parameter change or block start
executes, changes or deletes it. -/
theorem C43_pending_requests_wait {env : Env} {s s' : State} (hs : Reachable env s) {op : Op} (hop : op ≠ .endBlock)
    (h : step env op s = some s') :
    (∀ r ∈ s.deposits, r.status = .notExecuted → r ∈ s'.deposits) ∧ (∀ r ∈ s.withdraws, r.status = .notExecuted → r ∈ s'.withdraws) := by
  by_cases hb : ∃ a b, op = .beginBlock a b
  · obtain ⟨a, b, rfl⟩ := hb
    cases h
    constructor
    · intro r hr hst
      show r ∈ List.filter _ _
      rw [List.mem_filter]
      exact ⟨hr, by simp [hst, ReqStatus.shouldBeDeleted]⟩
    · intro r hr hst
      show r ∈ List.filter _ _
      rw [List.mem_filter]
      exact ⟨hr, by simp [hst, ReqStatus.shouldBeDeleted]⟩
  · have he := step_effect hs.wf (fun a b e => hb ⟨a, b, e⟩) hop h
    constructor
    · intro r hr _
      by_cases hd : ∃ m, op = .deposit m
      · obtain ⟨m, rfl⟩ := hd
        rcases C43_deposit_message hs h with rfl | ⟨p, q, hc⟩
        · exact hr
        · exact (hc.deposits r).2 (Or.inl hr)
      · rw [effect_deposits he (fun m e => hd ⟨m, e⟩)]; exact hr
    · intro r hr _
      by_cases hd : ∃ m, op = .withdraw m
      · obtain ⟨m, rfl⟩ := hd
        rcases C43_withdraw_message hs h with rfl | ⟨p, q, hc⟩
        · exact hr
        · exact (hc.withdraws r).2 (Or.inl hr)
      · rw [effect_withdraws he (fun m e => hd ⟨m, e⟩)]; exact hr

/-- C43: after matching, a batch gives every deposit request and then every withdraw request its turn, in order.  A pending
deposit is executed exactly once: accepted plus refunded coins are the offered ones, the minted coins go to the depositor,
nobody else's balance changes, and success and amounts are those computed from the pool at that moment.  The same for
withdrawals. -/
theorem C43_batch_trace {env : Env} {s s' : State} (hs : Reachable env s) (h : executeRequests env s = some s') :
    ∃ s2 s3, s2.deposits = s.deposits ∧ s2.withdraws = s.withdraws ∧ InTurn (DepositTurn env) s.deposits s2 s3 ∧
      InTurn (WithdrawTurn env) s.withdraws s3 s' := batch_turns hs.wf hs.clean h

/-- C43: a batch executes every pending request and leaves the others alone: every request is still there after it, and is
either unchanged (it had been executed before) or pending before and now executed with a proper outcome. -/
theorem C43_batch_executes_all {env : Env} {s s' : State} (hs : Reachable env s) (h : executeRequests env s = some s') :
    (∀ r ∈ s.deposits, ∃ r' ∈ s'.deposits, if r.status = .notExecuted then DepositOutcome r r' else r' = r) ∧
    (∀ r ∈ s.withdraws, ∃ r' ∈ s'.withdraws, if r.status = .notExecuted then WithdrawOutcome r r' else r' = r) ∧
    (∀ r' ∈ s'.deposits, ∃ r ∈ s.deposits, SameDeposit r r') ∧ (∀ r' ∈ s'.withdraws, ∃ r ∈ s.withdraws, SameWithdraw r r') := by
  have hf := batch_facts hs.wf hs.clean h
  have hd := executeRequests_spec hs.wf h
  have k := reach_keeps hs.wf hd.reach
  refine ⟨?_, ?_, ?_, ?_⟩
  · intro r hr
    obtain ⟨r', hr', e⟩ := k.deps r hr
    have hkey : r'.key = r.key := by rw [e]; rfl
    refine ⟨r', hr', ?_⟩
    rcases hf.deposits r' hr' with ⟨h1, h2⟩ | ⟨r0, h1, h2, h3⟩
    · have : r' = r := hs.wf.depsS.inj h1 hr hkey
      rw [← this, if_neg h2]
    · have : r0 = r := hs.wf.depsS.inj h1 hr (by rw [← hkey, h3.1]; rfl)
      rw [← this, if_pos h2]; exact h3
  · intro r hr
    obtain ⟨r', hr', e⟩ := k.wds r hr
    have hkey : r'.key = r.key := by rw [e]; rfl
    refine ⟨r', hr', ?_⟩
    rcases hf.withdraws r' hr' with ⟨h1, h2⟩ | ⟨r0, h1, h2, h3⟩
    · have : r' = r := hs.wf.wdsS.inj h1 hr hkey
      rw [← this, if_neg h2]
    · have : r0 = r := hs.wf.wdsS.inj h1 hr (by rw [← hkey, h3.1]; rfl)
      rw [← this, if_pos h2]; exact h3
  · intro r' hr'
    rcases hf.deposits r' hr' with ⟨h1, _⟩ | ⟨r0, h1, _, h3⟩
    · exact ⟨r', h1, rfl⟩
    · exact ⟨r0, h1, h3.1⟩
  · intro r' hr'
    rcases hf.withdraws r' hr' with ⟨h1, _⟩ | ⟨r0, h1, _, h3⟩
    · exact ⟨r', h1, rfl⟩
    · exact ⟨r0, h1, h3.1⟩

/-- C43: an executed request never changes again, whatever happens: it is not executed twice. -/
theorem C43_executed_once {env : Env} {s s' : State} (hs : Reachable env s) {ops : List Op} (h : run env ops s = some s') :
    (∀ r ∈ s.deposits, r.status ≠ .notExecuted → ∀ r' ∈ s'.deposits, r'.poolId = r.poolId → r'.id = r.id → r' = r) ∧
    (∀ r ∈ s.withdraws, r.status ≠ .notExecuted → ∀ r' ∈ s'.withdraws, r'.poolId = r.poolId → r'.id = r.id → r' = r) := by
  have he := run_evolves hs.wf h
  constructor
  · intro r hr hst r' hr' hk hi
    obtain ⟨_, ⟨p, p1, p2, p3⟩, _⟩ := hs.wf.deps r hr
    obtain ⟨r0, h0, ⟨e1, e2, _⟩, h2⟩ := he.deps r' hr' p p1 (by rw [p2, hk]) (by rw [hi]; exact p3)
    have : r0 = r := hs.wf.depsS.inj h0 hr (by simp [DepReq.key, ← e1, ← e2, hk, hi])
    subst this
    exact h2 hst
  · intro r hr hst r' hr' hk hi
    obtain ⟨_, ⟨p, p1, p2, p3⟩, _⟩ := hs.wf.wds r hr
    obtain ⟨r0, h0, ⟨e1, e2, _⟩, h2⟩ := he.wds r' hr' p p1 (by rw [p2, hk]) (by rw [hi]; exact p3)
    have : r0 = r := hs.wf.wdsS.inj h0 hr (by simp [WdReq.key, ← e1, ← e2, hk, hi])
    subst this
    exact h2 hst

/-- C43: the next block start deletes the executed requests and no others. -/
theorem C43_deleted_at_block_start {env : Env} {s s' : State} {height : Nat} {time : Int} (h : step env (.beginBlock height time) s = some s') :
    (∀ r, r ∈ s'.deposits ↔ r ∈ s.deposits ∧ r.status = .notExecuted) ∧ (∀ r, r ∈ s'.withdraws ↔ r ∈ s.withdraws ∧ r.status = .notExecuted) := by
  cases h
  constructor
  · intro r
    show r ∈ List.filter _ _ ↔ _
    rw [List.mem_filter]
    cases r.status <;> simp [ReqStatus.shouldBeDeleted]
  · intro r
    show r ∈ List.filter _ _ ↔ _
    rw [List.mem_filter]
    cases r.status <;> simp [ReqStatus.shouldBeDeleted]

/-- A pending deposit of (50000, 100000) into a pool with reserves of 2·10^6 each is executed: half of the base coins come
back. -/
example : ∃ s, Reachable Demo.env s ∧ (s.deposits.map (·.status) = [.notExecuted] ∧
    ((step Demo.env .endBlock s).map fun s' => (s'.deposits.map (·.status), s'.deposits.map (·.minted))) =
      some ([.succeeded], [25252525252]) ∧
    ((run Demo.env [.endBlock, .beginBlock 2 50] s).map fun s' => s'.deposits) = some []) :=
  Demo.reach Demo.placed _ (by decide +kernel)

/-- A withdrawal of the creator's pool coins, pending and then executed. -/
example : ∃ s, Reachable Demo.env s ∧ (s.withdraws.map (·.status) = [.notExecuted] ∧
    ((step Demo.env .endBlock s).map fun s' => s'.withdraws.map (·.status)) = some [.succeeded]) :=
  Demo.reach (Demo.placed ++ [.withdraw ⟨1, 1, ⟨.pool 1, 500000000000⟩⟩]) _ (by decide +kernel)

/-! ## C45 -/

/-- C45: a batch increases the batch id of every pair by exactly one and creates or removes no pair. -/
theorem C45_batch_ids {env : Env} {s s' : State} (hs : Reachable env s) (h : executeRequests env s = some s') :
    (∀ p ∈ s.pairs, ∃ p' ∈ s'.pairs, p'.id = p.id ∧ p'.base = p.base ∧ p'.quote = p.quote ∧ p'.lastOrderId = p.lastOrderId ∧
      p'.batchId = p.batchId + 1) ∧
    (∀ p' ∈ s'.pairs, ∃ p ∈ s.pairs, p'.id = p.id ∧ p'.base = p.base ∧ p'.quote = p.quote ∧ p'.lastOrderId = p.lastOrderId ∧
      p'.batchId = p.batchId + 1) := by
  have hd := executeRequests_spec hs.wf h
  constructor
  · intro p hp
    obtain ⟨lp, hlp⟩ := hd.pairs p hp
    exact ⟨_, hlp, rfl, rfl, rfl, rfl, rfl⟩
  · intro p' hp'
    have hid : p'.id ∈ s'.pairs.map (·.id) := List.mem_map_of_mem hp'
    rw [hd.wf.pair_range, hd.lastPairId, ← hs.wf.pair_range] at hid
    obtain ⟨p, hp, e⟩ := List.mem_map.1 hid
    obtain ⟨lp, hlp⟩ := hd.pairs p hp
    have : p' = { p with lastPrice := lp, batchId := p.batchId + 1 } := hd.wf.key_pair hp' hlp (by simpa using e.symm)
    exact ⟨p, hp, by rw [this], by rw [this], by rw [this], by rw [this], by rw [this]⟩

/-- C45: a block whose height is not a multiple of the batch size runs no batch: its end changes nothing. -/
theorem C45_off_batch {env : Env} {s s' : State} (h : step env .endBlock s = some s') (hh : s.height % s.params.batchSize ≠ 0) : s' = s := by
  change endBlock env s = some s' at h
  unfold endBlock at h
  split at h
  · cases h
  · exact (Option.some.inj h).symm

/-- C45: a block whose height is a multiple of the batch size runs a batch at its end. -/
theorem C45_on_batch {env : Env} {s : State} (hs : Reachable env s) (hh : s.height % s.params.batchSize = 0) :
    step env .endBlock s = executeRequests env s := by
  change endBlock env s = _
  unfold endBlock
  have : 0 < s.params.batchSize := by
    have := hs.validParams
    unfold Params.validate at this
    simp only [Bool.and_eq_true, decide_eq_true_eq] at this
    exact this.1.1.1.1.1.1.1.1
  rw [if_neg (by omega), if_pos hh]

/-- C45: only batches change the batch id or the last price of a pair. -/
theorem C45_only_batches {env : Env} {s s' : State} (hs : Reachable env s) {op : Op} (hop : op ≠ .endBlock) (h : step env op s = some s')
    {p : Pair} (hp : p ∈ s.pairs) : ∃ p' ∈ s'.pairs, p'.id = p.id ∧ p'.batchId = p.batchId ∧ p'.lastPrice = p.lastPrice := by
  by_cases hb : ∃ a b, op = .beginBlock a b
  · obtain ⟨a, b, rfl⟩ := hb
    cases h
    exact ⟨p, hp, rfl, rfl, rfl⟩
  · obtain ⟨p', h1, h2⟩ := (effect_pairs hs.wf (step_wf hs.wf h) (step_effect hs.wf (fun a b e => hb ⟨a, b, e⟩) hop h)).1 p hp
    exact ⟨p', h1, by rw [h2], by rw [h2], by rw [h2]⟩

/-- C45: in a batch the matching of each pair gets exactly the unfinished orders of the pair that are new or not yet expired,
and exactly the active pools of the pair that are not empty, with the reserves and supplies they have before the batch
(provided the dust collector is not one of the pools). -/
theorem C45_who_takes_part {env : Env} {s s' : State} (hs : Reachable env s) (h : executeRequests env s = some s') {p : Pair}
    (hp : p ∈ s.pairs) (hdust : ∀ id, s.params.dustCollector ≠ .poolReserve id) :
    ∃ (book : List OrderRec) (pools : List (Nat × Pool)) (out : Option MatchOut),
      keeperMatch env s.params (book.map newUserOrder) pools p.lastPrice = some out ∧ book.Nodup ∧
      (∀ o, o ∈ book ↔ o ∈ s.orders ∧ o.pairId = p.id ∧ Unfinished o ∧ (o.status = .notExecuted ∨ s.time < o.expireAt)) ∧
      (∀ id ap, (id, ap) ∈ pools ↔ ∃ q ∈ s.pools, q.id = id ∧ q.pairId = p.id ∧ q.disabled = false ∧
        ammPool env q (s.bank.bal (.poolReserve id) p.quote) (s.bank.bal (.poolReserve id) p.base) (s.bank.supply (.pool id)) = some ap ∧
        ¬ PoolEmpty q (s.bank.bal (.poolReserve id) p.quote) (s.bank.bal (.poolReserve id) p.base) (s.bank.supply (.pool id))) := by
  obtain ⟨t, t', hw, hpt, e, hprm, htime, hord, hpool, hsup, hres⟩ := batch_matches hs.wf h hp
  obtain ⟨pools, h1, _, h2, h3⟩ := (executeMatching_flow hw hpt e).cases
  have hbook : ∀ o, o ∈ bookOrders t p.id ↔ o ∈ s.orders ∧ o.pairId = p.id ∧ Unfinished o ∧ (o.status = .notExecuted ∨ s.time < o.expireAt) := by
    intro o
    unfold bookOrders State.ordersOf
    rw [List.mem_filter, List.mem_filter, htime]
    have hmt : o.status.isMatchable = true ↔ Unfinished o := by
      unfold Unfinished
      cases o.status <;> simp [OStatus.isMatchable]
    have hex : o.expiredAt s.time = true ↔ ¬ s.time < o.expireAt := by simp [OrderRec.expiredAt]
    rw [Bool.and_eq_true, hmt, Bool.not_eq_true', Bool.and_eq_false_iff, decide_eq_false_iff_not, not_not]
    constructor
    · rintro ⟨⟨a1, a2⟩, a3, a4⟩
      have a2 : o.pairId = p.id := by simpa using a2
      refine ⟨(hord o a2).1 a1, a2, a3, a4.imp id (fun e => ?_)⟩
      by_contra hc
      rw [hex.2 hc] at e; cases e
    · rintro ⟨a1, a2, a3, a4⟩
      refine ⟨⟨(hord o a2).2 a1, by simpa using a2⟩, a3, a4.imp id (fun e => ?_)⟩
      rw [Bool.eq_false_iff]
      exact fun e' => hex.1 e' e
  have hpools : ∀ id ap, (id, ap) ∈ pools ↔ ∃ q ∈ s.pools, q.id = id ∧ q.pairId = p.id ∧ q.disabled = false ∧
        ammPool env q (s.bank.bal (.poolReserve id) p.quote) (s.bank.bal (.poolReserve id) p.base) (s.bank.supply (.pool id)) = some ap ∧
        ¬ PoolEmpty q (s.bank.bal (.poolReserve id) p.quote) (s.bank.bal (.poolReserve id) p.base) (s.bank.supply (.pool id)) := by
    intro id ap
    constructor
    · intro he
      obtain ⟨q, q1, q2, q3, q4, q5, q6⟩ := h1 _ he
      simp only at q4 q5 q6
      have q1 := (hpool q q2).1 q1
      rw [hres q q1 q2 (hdust _), hres q q1 q2 (hdust _), hsup, ← q4] at q5
      exact ⟨q, q1, q4.symm, q2, q3, q5, fun e => by rw [(ammPool_depleted q5).2 e] at q6; cases q6⟩
    · rintro ⟨q, q1, rfl, q2, q3, q5, q6⟩
      obtain ⟨ap', a1, a2⟩ := h2 q ((hpool q q2).2 q1) q2 q3
      rw [hres q q1 q2 (hdust _), hres q q1 q2 (hdust _), hsup, q5] at a1
      have a1 := Option.some.inj a1
      subst a1
      exact a2 (by
        rw [Bool.eq_false_iff]
        exact fun e => q6 ((ammPool_depleted q5).1 e))
  have hnd : (bookOrders t p.id).Nodup := (hw.ordersS.nodup.filter _).filter _
  rw [hprm] at h3
  rcases h3 with ⟨h3, _⟩ | ⟨out, h3, _⟩
  · exact ⟨_, pools, none, h3, hnd, hbook, hpools⟩
  · exact ⟨_, pools, some out, h3, hnd, hbook, hpools⟩

/-- C45: after a batch no unfinished order is new, expired or below the minimum size (100 units of base coin worth at least 100
units of quote coin at the order price). -/
theorem C45_batch_leftovers {env : Env} {s s' : State} (hs : Reachable env s) (h : executeRequests env s = some s') {o : OrderRec}
    (ho : o ∈ s'.orders) (hu : Unfinished o) :
    o.status ≠ .notExecuted ∧ s.time < o.expireAt ∧ 100 ≤ o.openAmt ∧ 100 * 10 ^ 18 ≤ o.price * o.openAmt := by
  obtain ⟨h1, h2, h3⟩ := (executeRequests_spec hs.wf h).orders o ho ((done_iff o).2 hu)
  refine ⟨h1, ?_, ?_⟩
  · unfold OrderRec.expiredAt at h2
    simpa using h2
  · unfold isTooSmallOrderAmount at h3
    simp only [Bool.or_eq_false_iff, decide_eq_false_iff_not, not_lt] at h3
    exact ⟨h3.1, h3.2⟩

/-- C45: a new order that is finished by its first batch was matched completely, or has expired after having taken part, or
its open amount fell below the minimum size. -/
theorem C45_first_batch {env : Env} {s s' : State} (hs : Reachable env s) (h : executeRequests env s = some s') {o o' : OrderRec}
    (ho : o ∈ s.orders) (hn : o.status = .notExecuted) (ho' : o' ∈ s'.orders) (hp : o'.pairId = o.pairId) (hi : o'.id = o.id)
    (hf : ¬ Unfinished o') :
    o'.openAmt = 0 ∨ (o'.status = .expired ∧ (o.expireAt ≤ s.time ∨ o'.openAmt < 100 ∨ o.price * o'.openAmt < 100 * 10 ^ 18)) := by
  obtain ⟨o0, h0, h1, _, h3⟩ := (batch_facts hs.wf hs.clean h).orders o' ho'
  have : o0 = o := hs.wf.ordersS.inj h0 ho (by rw [← h1.key]; simp [OrderRec.key, hp, hi])
  subst this
  refine (h3 hn hf).imp id (fun ⟨e1, e2⟩ => ⟨e1, ?_⟩)
  rw [h1.expired] at e2
  have hprice : o'.price = o0.price := (sameTerms_iff.2 h1 ▸ rfl)
  rcases e2 with e2 | e2
  · left
    unfold OrderRec.expiredAt at e2
    simpa using e2
  · right
    unfold isTooSmallOrderAmount at e2
    rw [hprice] at e2
    simp only [Bool.or_eq_true, decide_eq_true_eq] at e2
    exact e2

/-- The demo chain before and after its first batch. -/
example : ∃ s, Reachable Demo.env s ∧ (s.orders.map (·.status) = [.notExecuted, .notExecuted] ∧ s.pairs.map (·.batchId) = [1] ∧
    s.height % s.params.batchSize = 0 ∧ s.params.dustCollector = .other 2 ∧
    ((executeRequests Demo.env s).map fun s' => (s'.orders.map (·.status), s'.pairs.map (·.batchId), s'.orders.map (·.openAmt))) =
      some ([.completed, .partiallyMatched], [2], [0, 7798])) := Demo.reach Demo.placed _ (by decide +kernel)

/-! ## C58 -/

/-- C58: orders, cancellations, deposits, withdrawals and parameter changes move exactly the coins that the stored records
say: the balance of every account, corrected by the records, stays the same. -/
theorem C58_messages_are_recorded {env : Env} {s s' : State} (hs : Reachable env s) {op : Op} (h : step env op s = some s')
    (hop : (∃ m, op = .deposit m) ∨ (∃ m, op = .withdraw m) ∨ (∃ m, op = .limitOrder m) ∨ (∃ m, op = .marketOrder m) ∨
      (∃ m, op = .mmOrder m) ∨ (∃ m, op = .cancelOrder m) ∨ (∃ m, op = .cancelAllOrders m) ∨ (∃ p, op = .setParams p))
    (a : Addr) (d : Denom) : ledger s' a d = ledger s a d := by
  have hw' := step_wf hs.wf h
  have he : Effect env s s' op := step_effect hs.wf (by rintro x y rfl; simp at hop) (by rintro rfl; simp at hop) h
  cases he with
  | same _ e => rw [e]
  | pair m b hb e => simp at hop
  | pool m pr cs mt e => simp at hop
  | ranged m pr cs mt e => simp at hop
  | deposit m p r e => exact deposit_ledger hs.wf hw' e a d
  | withdraw m p r e => exact withdraw_ledger hs.wf hw' e a d
  | order _ hop p o e => exact placed_ledger hs.wf hw' e a d
  | cancel _ hop hf hs ho hl => exact hl a d
  | transfer src dst cs b hb e => simp at hop
  | params p hv e => rw [e]; rfl

/-- C58: the same for the end of a block and every account that is not the escrow account of a pair, the reserve account of a
pool or the dust collector: what a user (or any other account) gets or loses in a batch is exactly what the records of its
orders and requests say. -/
theorem C58_batch_is_recorded {env : Env} {s s' : State} (hs : Reachable env s) (h : step env .endBlock s = some s') {a : Addr}
    (ha : ∀ id, a ≠ .pairEscrow id ∧ a ≠ .poolReserve id) (hu : s.params.dustCollector ≠ a) (d : Denom) :
    ledger s' a d = ledger s a d := by
  rcases endBlock_cases h with rfl | h
  · rfl
  · exact batch_ledger_user hs.wf h ha d hu

/-- C58: the start of a block changes no balance. -/
theorem C58_block_start {env : Env} {s s' : State} {height : Nat} {time : Int} (h : step env (.beginBlock height time) s = some s') :
    s'.bank = s.bank := by cases h; rfl

/-- C58: a transfer moves the coins, or nothing happens; all records stay. -/
theorem C58_transfer {env : Env} {s s' : State} {src : Nat} {dst : Addr} {cs : Coins}
    (h : step env (.transfer src dst cs) s = some s') :
    s' = s ∨ (s' = { s with bank := s'.bank } ∧ s'.bank.supply = s.bank.supply ∧
      ∀ a d, s'.bank.bal a d = s.bank.bal a d + transferEffect ⟨.user src, dst, cs⟩ a d) := by
  cases h
  rcases tx_cases (valid := true) (handler := fun s => (s.bank.send (.user src) dst cs).map (fun b => { s with bank := b })) (s := s)
    with e | ⟨_, e⟩
  · exact Or.inl e
  · rw [Option.map_eq_some_iff] at e
    obtain ⟨b, hb, e⟩ := e
    rw [← e]
    exact Or.inr ⟨rfl, (send_some hb).2.2.1, (send_some hb).2.2.2⟩

/-- In the demo chain the buyer's order has used 1980 of its offered 2020 quote coins (the rest came back) for 2000 base
coins, and its deposit used 25000 and was refunded the rest. -/
example : ∃ s, Reachable Demo.env s ∧ (ledger s (.user 2) (.native 1) = 1000000000 ∧ ledger s (.user 2) (.native 0) = 1000000000 ∧
    s.bank.bal (.user 2) (.native 1) < 1000000000 ∧ 0 < s.bank.bal (.user 2) (.pool 1) ∧ s.bank.bal .globalEscrow (.native 0) = 0) :=
  Demo.reach (Demo.placed ++ [.endBlock]) _ (by decide +kernel)

/-! ## C60 -/

/-- C60: whatever other accounts do and whatever happens in blocks, the balances of an account only go down by its own
messages. -/
theorem C60_only_own_messages_cost {env : Env} {s s' : State} {ops : List Op} (h : run env ops s = some s') {u : Nat}
    (hne : ∀ op ∈ ops, sender op ≠ some u) (d : Denom) : s.bank.bal (.user u) d ≤ s'.bank.bal (.user u) d :=
  gains_history hne h d

/-- Users 1 and 3 trade with the pool and user 2 for some blocks; user 2 (who only has an open order) loses nothing. -/
example : ∃ s, Reachable Demo.env s ∧ ((run Demo.env [.limitOrder ⟨3, 1, .sell, ⟨.native 0, 30000⟩, .native 1, 990000000000000000, 30000, 100⟩,
    .endBlock, .beginBlock 2 50] s).map fun s' => (s.bank.bal (.user 2) (.native 0), s'.bank.bal (.user 2) (.native 0))) =
      some (999900000, 999950984) := Demo.reach (Demo.placed.take 4) _ (by decide +kernel)

theorem atom_clock {s s' : State} (h : Atom s s') : s'.height = s.height ∧ s'.time = s.time := by
  cases h <;> first | exact ⟨rfl, rfl⟩ | (unfold State.decMM; split <;> exact ⟨rfl, rfl⟩) | (unfold State.incMM; split <;> exact ⟨rfl, rfl⟩) | (split <;> exact ⟨rfl, rfl⟩)

/-- Only the start of a block moves the clock. -/
theorem step_clock {env : Env} {s s' : State} (hw : WF s) {op : Op} (h : step env op s = some s') (hop : ∀ a b, op ≠ .beginBlock a b) :
    s'.height = s.height ∧ s'.time = s.time := by
  rcases step_cases hw h with hr | ⟨p, _, _, rfl⟩ | ⟨a, b, e, _⟩
  · exact reach_rel (R := fun s s' => s'.height = s.height ∧ s'.time = s.time) (fun _ => ⟨rfl, rfl⟩)
      (fun _ _ _ h1 h2 => ⟨h2.1.trans h1.1, h2.2.trans h1.2⟩) (fun _ _ _ h => atom_clock h) hw hr
  · exact ⟨rfl, rfl⟩
  · exact absurd e (hop a b)

/-- C45: the block in which a message or the end of a block is executed is the one that was started last. -/
theorem C45_block_clock {env : Env} {s s' : State} (hs : Reachable env s) {height : Nat} {time : Int} {ops : List Op}
    (hops : ∀ a b, .beginBlock a b ∉ ops) (h : run env (.beginBlock height time :: ops) s = some s') :
    s'.height = height ∧ s'.time = time := by
  have key : ∀ {ops : List Op} {s s' : State}, WF s → (∀ a b, .beginBlock a b ∉ ops) → run env ops s = some s' →
      s'.height = s.height ∧ s'.time = s.time := by
    intro ops
    induction ops with
    | nil => intro s s' _ _ h; cases h; exact ⟨rfl, rfl⟩
    | cons op ops ih =>
      intro s s' hw hops h
      simp only [run] at h
      cases e : step env op s with
      | none => rw [e] at h; cases h
      | some t =>
        rw [e] at h
        have h1 := step_clock hw e (fun a b e => hops a b (by rw [e]; exact List.mem_cons_self ..))
        have h2 := ih (step_wf hw e) (fun a b hm => hops a b (List.mem_cons_of_mem _ hm)) h
        exact ⟨h2.1.trans h1.1, h2.2.trans h1.2⟩
  have e : step env (.beginBlock height time) s = some (beginBlock height time s) := rfl
  simp only [run, e] at h
  exact key (step_wf hs.wf e) hops h

/-- C45: no order outlives its expiry: when a block that was started at a time ends with a batch, every unfinished order
expires later than that time. -/
theorem C45_no_order_outlives_expiry {env : Env} {s s1 s2 : State} (hs : Reachable env s) {height : Nat} {time : Int} {ops : List Op}
    (hops : ∀ a b, .beginBlock a b ∉ ops) (h1 : run env (.beginBlock height time :: ops) s = some s1)
    (hb : height % s1.params.batchSize = 0) (h2 : step env .endBlock s1 = some s2) {o : OrderRec} (ho : o ∈ s2.orders)
    (hu : Unfinished o) : time < o.expireAt := by
  obtain ⟨h3, h4⟩ := C45_block_clock hs hops h1
  have hs1 := hs.run h1
  rw [C45_on_batch hs1 (by rw [h3]; exact hb)] at h2
  rw [← h4]
  exact (C45_batch_leftovers hs1 h2 ho hu).2.1

/-- Satisfiable: a block, started at time 1000 and ending with a batch, that leaves a part of an order open until 1100. -/
example : (((run Demo.env (.beginBlock 4 1000 :: Demo.placed) Demo.s0).bind fun s1 =>
    if 4 % s1.params.batchSize = 0 then step Demo.env .endBlock s1 else none).map fun s2 =>
      s2.orders.any fun o => decide (Unfinished o ∧ o.expireAt = 1100)) = some true := by
  decide +kernel

end Verif.Props

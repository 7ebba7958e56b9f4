import Verif.Proofs.PairBatch
import Verif.Proofs.Steps
import Verif.Proofs.PoolTrade
import Verif.Proofs.SaneDemo
/-! # The complete specification of a batch (C36, C45, C59) -/
namespace Verif.Props
open Verif Verif.Amm Verif.Dex Verif.Spec

/-- C45: the complete result of a batch.  First the orders of every pair are matched with its pools and expired, as `PairBatch`
says: that determines the pair, its orders and its pools, the reserves of the pools and what the escrow account gains.  No pair,
pool or order appears or disappears.  Then the deposit requests and at last the withdraw requests have their turns. -/
theorem C45_batch_spec {env : Env} {s s' : State} (hs : Reachable env s) (h : executeRequests env s = some s')
    (hdust : ∀ id, s.params.dustCollector ≠ .poolReserve id) :
    ∃ s2 s3, (∀ p ∈ s.pairs, ∃ book pools out, PairBatch env s s2 p book pools out) ∧
      (∀ p' ∈ s2.pairs, ∃ p ∈ s.pairs, p'.id = p.id) ∧ (∀ q' ∈ s2.pools, ∃ q ∈ s.pools, q'.id = q.id) ∧
      (∀ o' ∈ s2.orders, ∃ o ∈ s.orders, SameTerms o o') ∧
      (s2.pairs.map (·.id)).Nodup ∧ (s2.pools.map (·.id)).Nodup ∧ (s2.orders.map fun o => (o.pairId, o.id)).Nodup ∧
      (∀ o ∈ s.orders, ∃ p ∈ s.pairs, o.pairId = p.id) ∧ (∀ q ∈ s.pools, ∃ p ∈ s.pairs, q.pairId = p.id) ∧
      s2.deposits = s.deposits ∧ s2.withdraws = s.withdraws ∧ s2.bank.supply = s.bank.supply ∧
      s2.params = s.params ∧ s2.height = s.height ∧ s2.time = s.time ∧ s2.lastPairId = s.lastPairId ∧ s2.lastPoolId = s.lastPoolId ∧
      InTurn (DepositTurn env) s.deposits s2 s3 ∧ InTurn (WithdrawTurn env) s.withdraws s3 s' := by
  have hw := hs.wf
  have hc := hs.clean
  unfold executeRequests at h
  split at h
  · cases h
  · rename_i s1 h1
    have m1 := matching_all hw h1
    split at h
    · cases h
    · rename_i s2 h2
      have m2 := expire_all m1.wf h2
      have d1 : s2.deposits = s.deposits := m2.frame.deposits.trans m1.deposits
      have d2 : s2.withdraws = s.withdraws := m2.frame.withdraws.trans m1.withdraws
      have hc2 : Clean s2 := by unfold Clean; rw [d1, d2]; exact hc
      have l1 : s2.lastPairId = s.lastPairId := m2.frame.lastPairId.trans m1.lastPairId
      have l2 : s2.lastPoolId = s.lastPoolId := m2.frame.lastPoolId.trans m1.lastPoolId
      split at h
      · cases h
      · rename_i s3 h3
        have m3 := deposit_all m2.wf h3
        have hc3 := (deposit_pass_spec m2.wf hc2 h3).1
        refine ⟨s2, s3, fun p hp => pair_batch hw h1 h2 hp hdust, ?_, ?_, ?_, ?_, ?_, ?_, ?_, ?_, d1, d2, ?_,
          m2.frame.params.trans m1.params, m2.frame.height.trans m1.height, m2.frame.time.trans m1.time, l1, l2, ?_, ?_⟩
        · intro p' hp'
          obtain ⟨a, b⟩ := m2.wf.pairIds p' hp'
          obtain ⟨p, h4, h5⟩ := hw.pairAll p'.id a (l1 ▸ b)
          exact ⟨p, h4, h5.symm⟩
        · intro q' hq'
          obtain ⟨a, b, _⟩ := m2.wf.poolIds q' hq'
          obtain ⟨p, h4, h5⟩ := hw.poolAll q'.id a (l2 ▸ b)
          exact ⟨p, h4, h5.symm⟩
        · intro o' ho'
          obtain ⟨o1, h4, h5⟩ := m2.back o' ho'
          obtain ⟨o, h6, h7, _⟩ := m1.back o1 h4
          refine ⟨o, h6, ?_⟩
          rw [← sameTerms_iff] at h7
          rcases h5 with rfl | ⟨_, rfl, _⟩
          · exact h7
          · unfold SameTerms at h7 ⊢
            rw [h7]
        · have := m2.wf.pairsS.keys_nodup
          refine List.Nodup.of_map (fun n : Nat => ((n, 0) : Key)) ?_
          rw [List.map_map]; exact this
        · have := m2.wf.poolsS.keys_nodup
          refine List.Nodup.of_map (fun n : Nat => ((n, 0) : Key)) ?_
          rw [List.map_map]; exact this
        · exact m2.wf.ordersS.keys_nodup
        · intro o ho
          obtain ⟨p, h4, h5, _⟩ := (hw.ords o ho).2.2
          exact ⟨p, h4, h5.symm⟩
        · intro q hq
          obtain ⟨p, h4, h5⟩ := (hw.poolIds q hq).2.2
          exact ⟨p, h4, h5.symm⟩
        · have b1 : s1.bank.supply = s.bank.supply := rel_forEach supply_rel (fun s : State => s.bank) (fun x a b e => rel_executeMatching supply_rel e) h1
          have b2 : s2.bank.supply = s1.bank.supply := rel_forEach supply_rel (fun s : State => s.bank) (fun x a b e => rel_expireOrder supply_rel e) h2
          exact b2.trans b1
        · rw [← d1]; exact deposit_turns m2.wf hc2 h3
        · rw [← d2, ← m3.withdraws]; exact withdraw_turns m3.wf hc3 h

/-- The demo chain before its first batch meets the hypotheses; the batch completes a buy order, half fills a sell order, executes a
deposit and sets the last price. -/
example : ∃ s, Reachable Demo.env s ∧ (s.orders.map (·.status) = [.notExecuted, .notExecuted] ∧ s.pairs.map (·.batchId) = [1] ∧
    s.params.dustCollector = .other 2 ∧ s.pairs.map (·.lastPrice) = [none] ∧
    ((executeRequests Demo.env s).map fun s' => (s'.orders.map (·.status), s'.pairs.map (·.batchId), s'.orders.map (·.openAmt))) =
      some ([.completed, .partiallyMatched], [2], [0, 7798]) ∧
    ((executeRequests Demo.env s).map fun s' => s'.deposits.map (·.status)) = some [.succeeded]) := Demo.reach Demo.placed _ (by decide +kernel)

/-- C45: what a batch does to each order: a finished one stays as it is; an unfinished one has traded or not and is then completed,
expired or kept. -/
theorem C45_orders_after_batch {env : Env} {s s' : State} (hs : Reachable env s) (h : executeRequests env s = some s')
    (hdust : ∀ id, s.params.dustCollector ≠ .poolReserve id) :
    ∀ o' ∈ s'.orders, ∃ o ∈ s.orders, SameTerms o o' ∧ ((¬ Unfinished o ∧ o' = o) ∨ (Unfinished o ∧ afterNoTrade s.time o o') ∨
      (Unfinished o ∧ ∃ y : Order, y.openAmt < y.amount ∧ y.kind = .user o.id o.batchId ∧ afterTrade s.time o y o')) := by
  intro o' ho'
  obtain ⟨s2, s3, hB, _, _, hback, _, _, hnd, hpr, _, _, _, _, _, _, _, _, _, hdt, hwt⟩ := C45_batch_spec hs h hdust
  have e1 : ∀ (l : List DepReq) (a b : State), InTurn (DepositTurn env) l a b → b.orders = a.orders := by
    intro l a b hT
    induction hT with
    | nil => rfl
    | cons h _ ih =>
      rw [ih]
      rcases h with ⟨_, r, h, _⟩ | ⟨_, rfl⟩
      · exact h.rest.2.2.2.2.2.1
      · rfl
  have e2 : ∀ (l : List WdReq) (a b : State), InTurn (WithdrawTurn env) l a b → b.orders = a.orders := by
    intro l a b hT
    induction hT with
    | nil => rfl
    | cons h _ ih =>
      rw [ih]
      rcases h with ⟨_, r, h, _⟩ | ⟨_, rfl⟩
      · exact h.rest.2.2.2.2.2.1
      · rfl
  rw [e2 _ _ _ hwt, e1 _ _ _ hdt] at ho'
  obtain ⟨o, ho, hst⟩ := hback o' ho'
  obtain ⟨p, hp, hop⟩ := hpr o ho
  obtain ⟨book, pools, out, B⟩ := hB p hp
  have huniq : ∀ x ∈ s2.orders, x.pairId = o.pairId → x.id = o.id → o' = x := by
    intro x hx h1 h2
    refine List.inj_on_of_nodup_map hnd ho' hx ?_
    unfold SameTerms at hst
    simp only [Prod.mk.injEq]
    rw [hst, h1, h2]
    exact ⟨rfl, rfl⟩
  refine ⟨o, ho, hst, ?_⟩
  by_cases hu : Unfinished o
  · by_cases ht : ∃ y ∈ resultOrders out, y.kind = .user o.id o.batchId ∧ y.openAmt < y.amount
    · obtain ⟨y, hy, hk, hlt⟩ := ht
      obtain ⟨ob, hob, i1, i2⟩ := B.users y hy _ _ hk
      obtain ⟨j1, j2, _⟩ := (B.bookIs ob).1 hob
      have : ob = o := hs.wf.ordersS.inj j1 ho (by unfold OrderRec.key; rw [j2, i1, hop])
      subst this
      obtain ⟨x, hx, hax⟩ := B.tradedOrders ob hob y hy hk hlt
      refine Or.inr (Or.inr ⟨hu, y, hlt, hk, ?_⟩)
      rw [huniq x hx]
      · exact hax
      · rcases hax with ⟨_, rfl⟩ | ⟨_, _, rfl⟩ | ⟨_, _, rfl⟩ <;> rfl
      · rcases hax with ⟨_, rfl⟩ | ⟨_, _, rfl⟩ | ⟨_, _, rfl⟩ <;> rfl
    · push Not at ht
      obtain ⟨x, hx, hax⟩ := B.otherOrders o ho hop hu (fun y hy hk => by have := ht y hy hk; omega)
      refine Or.inr (Or.inl ⟨hu, ?_⟩)
      rw [huniq x hx]
      · exact hax
      · rcases hax with ⟨_, rfl⟩ | ⟨_, rfl⟩ <;> rfl
      · rcases hax with ⟨_, rfl⟩ | ⟨_, rfl⟩ <;> rfl
  · exact Or.inl ⟨hu, huniq o (B.finished o ho hop hu) rfl rfl⟩

/-- C59: in a sane chain the status of every order tells the truth: a new or unmatched order is open in full, a partially matched one
in part, a completed one not at all, and canceled and expired orders had something open. -/
theorem C59_status_true {env : Env} {s : State} (hc : SaneChain env s) : ∀ o ∈ s.orders, StatusTrue o := by
  induction hc with
  | @genesis s h => rw [h.orders]; simp
  | @step s s' hc op hs e ih =>
    have hsane := sane_of_chain hc
    have hr := hsane.reach
    have hw := hr.wf
    have hsane' := sane_of_chain (hc.step op hs e)
    have hopen : ∀ o, StatusTrue o → 0 < o.amount → Unfinished o → 0 < o.openAmt := by
      intro o h1 h2 h3
      unfold Unfinished at h3
      unfold StatusTrue at h1
      rcases h3 with h3 | h3 | h3 <;> rw [h3] at h1 <;> simp only at h1 <;> omega
    by_cases h1 : ∃ a b, op = .beginBlock a b
    · obtain ⟨a, b, rfl⟩ := h1
      cases e
      exact fun o ho => ih o (List.mem_filter.1 ho).1
    · by_cases h2 : op = .endBlock
      · subst h2
        change endBlock env s = some s' at e
        unfold endBlock at e
        split at e
        · cases e
        · split at e
          · intro o' ho'
            have hO' := hsane'.orders o' ho'
            obtain ⟨o, ho, hst, hcase⟩ := C45_orders_after_batch hr e (hs rfl).dust o' ho'
            have hO := hsane.orders o ho
            have hT := ih o ho
            have hpos := hopen o hT hO.amount
            have hle := hO.facts.1
            have hnn := hO'.opened
            rcases hcase with ⟨_, rfl⟩ | ⟨hu, ⟨_, rfl⟩ | ⟨_, rfl⟩⟩ | ⟨hu, y, hlt, _, ⟨h3, rfl⟩ | ⟨h3, _, rfl⟩ | ⟨h3, _, rfl⟩⟩
            · exact hT
            · exact hpos hu
            · unfold StatusTrue at hT ⊢
              unfold Unfinished at hu
              rcases hu with hu | hu | hu <;> rw [hu] at hT <;> simp only [hu] at hT ⊢ <;> exact hT
            · exact h3
            · simp only at hnn
              unfold StatusTrue
              simp only
              omega
            · simp only at hnn
              unfold StatusTrue
              unfold traded at h3 hnn ⊢
              simp only at h3 hnn ⊢
              omega
          · cases e
            exact ih
      · have hE := step_effect hw (by push Not at h1; exact h1) h2 e
        clear e
        cases hE with
        | same _ h => rw [h]; exact ih
        | pair m b hb h => rw [h]; exact ih
        | pool m pr cs mt h => rw [h.rest.2.2.2.2.2.1]; exact ih
        | ranged m pr cs mt h => rw [h.rest.2.2.2.2.2.1]; exact ih
        | deposit m p r h => rw [h.rest.2.2.2.2.2.1]; exact ih
        | withdraw m p r h => rw [h.rest.2.2.2.2.2.1]; exact ih
        | order _ hop p o h hpos =>
          intro x hx
          rcases (h.orders x).1 hx with hx | rfl
          · exact ih x hx
          · unfold StatusTrue
            rw [h.fresh.1]
            exact h.fresh.2.1
        | cancel _ hop hf hs ho' hl =>
          intro x hx
          rcases ho' x hx with hx | ⟨o, h1, h2, rfl⟩
          · exact ih x hx
          · exact hopen o (ih o h1) (hsane.orders o h1).amount h2
        | transfer src dst cs b hb h => rw [h]; exact ih
        | params p hv h => rw [h]; exact ih

/-- Non-vacuity: a sane chain with a completed, a partially matched, a canceled and a new order. -/
example : ∃ s, SaneChain Demo.env s ∧ SaneState Demo.env s ∧
    s.orders.map (·.status) = [.completed, .partiallyMatched, .canceled, .notExecuted] :=
  Demo.saneReach (Demo.placed ++ [.limitOrder ⟨3, 1, .sell, ⟨.native 0, 10000⟩, .native 1, 1050000000000000000, 10000, 100⟩, .endBlock,
    .cancelOrder ⟨3, 1, 3⟩, .limitOrder ⟨3, 1, .sell, ⟨.native 0, 10000⟩, .native 1, 1050000000000000000, 10000, 100⟩]) _ (by decide +kernel)

/-- C59: in a batch of a sane chain every order of a pool that traded is explained by trades at prices below the price of the pool if
it bought and not below it if it sold, and pays no more than it offered. (What the pool as a whole pays and gets is
`PairBatch.reserves`, that its offers are covered by its reserves is C11.) -/
theorem C59_pool_trades {env : Env} (hsq : ∀ d, 0 ≤ d → 0 ≤ env.sqrt d) {s s2 : State} (hc : SaneChain env s) (hs : SaneState env s)
    {p : Pair} (hp : p ∈ s.pairs) {book : List OrderRec} {pools : List (Nat × Pool)} {out : MatchOut}
    (hB : PairBatch env s s2 p book pools (some out)) :
    ∀ y ∈ out.orders, ∀ id, y.kind = .pool id → ∃ ap pp trades, (id, ap) ∈ pools ∧ ap.price = some pp ∧ PoolTrades pp y trades :=
  fun _ hy _ hk => pool_trades hsq (sane_of_chain hc) hs hp hB hy hk

/-- C36: in a batch of a sane chain the matching of a pair leaves what its escrow account holds beyond the remaining offers of its
orders exactly as it was in every denom but the base coin; of the base coin it loses what was bought beyond what was sold. -/
theorem C36_batch_escrow {env : Env} {s s2 : State} (hc : SaneChain env s) (hs : SaneState env s)
    (hd : ∀ id, s.params.dustCollector ≠ .pairEscrow id) {p : Pair} (hp : p ∈ s.pairs) {book : List OrderRec}
    {pools : List (Nat × Pool)} {out : Option MatchOut} (hB : PairBatch env s s2 p book pools out) (d : Denom) :
    escrowSlack s2 p.id d = escrowSlack s p.id d - (if d = p.base then bought (resultOrders out) - sold (resultOrders out) else 0) :=
  escrow_batch (sane_of_chain hc) hs hp hB hd d

/-- Non-vacuity: a sane chain with a pool and two orders whose matching is a `PairBatch` in which the pool trades. -/
example : ∃ s, SaneChain Demo.env s ∧ SaneState Demo.env s ∧ (∀ id, s.params.dustCollector ≠ .pairEscrow id) ∧ ∃ p ∈ s.pairs,
    ∃ s2 book pools out, PairBatch Demo.env s s2 p book pools (some out) ∧
      ∃ y ∈ out.orders, y.kind = .pool 1 ∧ y.openAmt < y.amount := by
  obtain ⟨s, h1, h2, h3, h4, h5⟩ := Demo.saneReach Demo.placed (fun s => s.params.dustCollector = .other 2 ∧ s.pairs.map (·.id) = [1] ∧
    (((forEach (executeMatching Demo.env) s.pairs s).bind fun s1 => forEach expireOrder s1.orders s1).map fun s2 =>
      decide (s2.pairs.map (·.lastPrice) ≠ [none] ∧ s2.bank.bal (.poolReserve 1) (.native 0) ≠ s.bank.bal (.poolReserve 1) (.native 0) ∧
        s.pools.map (fun q => (q.id, q.pairId)) = [(1, 1)])) =
      some true) (by decide +kernel)
  rw [Option.map_eq_some_iff] at h5
  obtain ⟨s2, h5, h6⟩ := h5
  rw [Option.bind_eq_some_iff] at h5
  obtain ⟨s1, e1, e2⟩ := h5
  obtain ⟨h6, h7, h8⟩ := of_decide_eq_true h6
  obtain ⟨p, l, hp, hl⟩ := List.map_eq_cons_iff.1 h4
  obtain ⟨q, ql, hq, hql⟩ := List.map_eq_cons_iff.1 h8
  obtain ⟨book, pools, out, hB⟩ := pair_batch (sane_of_chain h1).reach.wf e1 e2 (p := p) (by rw [hp]; simp) h2.dust
  refine ⟨s, h1, h2, by rw [h3]; simp, p, by rw [hp]; simp, s2, book, pools, ?_⟩
  have hres := hB.reserves q (by rw [hq]; simp) (by have := hql.1; simp only [Prod.mk.injEq] at this; rw [this.2, hl.1]) (.native 0)
  have hid : q.id = 1 := by have := hql.1; simp only [Prod.mk.injEq] at this; exact this.1
  rw [hid] at hres
  have hne : poolGain p 1 (.native 0) (resultOrders out) ≠ 0 := fun e => h7 (by rw [hres, e, Int.add_zero])
  cases out with
  | none => exact absurd rfl hne
  | some out =>
    refine ⟨out, hB, ?_⟩
    by_contra hcon
    push Not at hcon
    refine hne (total_zero ?_)
    intro y hy
    exact if_neg (fun hc => absurd hc.2 (by have := hcon y hy hc.1; omega))

end Verif.Props

import Verif.Proofs.HaltMatch
import Verif.Proofs.Escrow
import Verif.Proofs.HaltRequests
/-! # The matching pass of a batch whose prices are at least one does not fail (C61) -/
namespace Verif.Dex
open Verif Verif.Amm Verif.Spec

variable {s s' : State}

theorem batch_matching_total (hw : WF s) {env : Env} (hs : SaneState env s) (ho : ∀ o ∈ s.orders, Explained o)
    (hl : ∀ p ∈ s.pairs, ∀ lp, p.lastPrice = some lp → 0 < lp) (hh : HighPrices env s) (hsl : ∀ pid d, 0 ≤ escrowSlack s pid d) :
    ∃ s', forEach (executeMatching env) s.pairs s = some s' ∧ Matching s [] s' ∧ (∀ pid d, 0 ≤ escrowSlack s' pid d) ∧
      s'.shortfall = s.shortfall := by
  obtain ⟨t, h1, h2, _, _, _, _, h3, h4⟩ := forEach_total (f := executeMatching env)
    (fun xs t => Matching s xs t ∧ (∀ q, (∃ x ∈ xs, x.id = q.pairId) → (q ∈ t.pools ↔ q ∈ s.pools)) ∧
      t.bank.supply = s.bank.supply ∧ (∀ q ∈ s.pools, (∃ x ∈ xs, x.id = q.pairId) → ∀ d,
      t.bank.bal (.poolReserve q.id) d = s.bank.bal (.poolReserve q.id) d) ∧ Trading s t ∧
      (∀ pid d, 0 ≤ escrowSlack t pid d) ∧ t.shortfall = s.shortfall) (by
    rintro x xs t ⟨ht, hpl, hsup, hres, htr, hst, hsf⟩
    have hx := ht.pending x (by simp)
    have hnd := (List.nodup_cons.1 ht.nodup)
    have hne : ∀ y ∈ xs, y.id ≠ x.id := fun y hy e2 => hnd.1 (ht.wf.key_pair (ht.pending y (by simp [hy])).1 hx.1 e2 ▸ hy)
    have horders : ∀ o ∈ t.orders, o.pairId = x.id → Explained o := fun o h1 _ => by
      obtain ⟨_, _, _, _, h2⟩ := htr.orders o h1; exact h2
    have hpools : ∀ pool ∈ t.pools, pool.pairId = x.id → ∀ ap pp,
        ammPool env pool (t.bank.bal (.poolReserve pool.id) x.quote) (t.bank.bal (.poolReserve pool.id) x.base)
          (t.bank.supply (.pool pool.id)) = some ap → ap.price = some pp → 0 ≤ pp := by
      intro pool p1 p2 ap pp p3 p4
      have hps := (hpl pool ⟨x, by simp, p2.symm⟩).1 p1
      rw [hres pool hps ⟨x, by simp, p2.symm⟩, hres pool hps ⟨x, by simp, p2.symm⟩, hsup] at p3
      exact hs.prices pool hps x hx.2 p2.symm ap pp p3 p4
    have hprm : SaneParams t.params := by rw [ht.params]; exact hs.params
    obtain ⟨t', e1, hsf'⟩ := matching_total ht.wf hh.sqrt hx.1 hprm horders (fun lp h => hh.last x hx.2 lp h)
      (fun o o1 o2 o3 o4 => hh.sells o ((ht.same o ⟨x, by simp, o2.symm⟩).1 o1) o3 o4)
      (by
        intro pool p1 p2 p3
        have hps := (hpl pool ⟨x, by simp, p2.symm⟩).1 p1
        unfold PoolFine
        rw [hres pool hps ⟨x, by simp, p2.symm⟩, hres pool hps ⟨x, by simp, p2.symm⟩, hsup]
        exact hh.pools x hx.2 pool hps p2 p3)
      (by rw [ht.params]; exact hh.dust _) (fun d => hst _ d)
    have hm := executeMatching_spec ht.wf hx.1 e1
    obtain ⟨m1, lp, m2, m3⟩ := matching_trades ht.wf hx.1 (env := env) hprm horders (htr.prices x hx.1) hpools e1
    obtain ⟨esc1, esc2⟩ := matching_escrow ht.wf hx.1 (env := env) hprm horders (htr.prices x hx.1) hpools e1
    refine ⟨t', e1, matching_step ht e1, ?_, ?_, ?_, ⟨?_, ?_⟩, ?_, hsf'.trans hsf⟩
    · rintro q ⟨y, hy, hq⟩
      rw [executeMatching_pools_others ht.wf e1 (by rw [← hq]; exact hne y hy), hpl q ⟨y, by simp [hy], hq⟩]
    · rw [rel_executeMatching supply_rel e1, hsup]
    · rintro q hqs ⟨y, hy, hq⟩ d
      rw [executeMatching_reserve_others ht.wf hx.1 e1 ((hpl q ⟨y, by simp [hy], hq⟩).2 hqs) (by rw [← hq]; exact hne y hy)
        (by rw [ht.params]; exact hs.dust _), hres q hqs ⟨y, by simp [hy], hq⟩]
    · intro o hot
      by_cases hp : o.pairId = x.id
      · obtain ⟨o1, h1, l, h2, h3⟩ := m1 o hot hp
        obtain ⟨o0, h4, l0, h5, _⟩ := htr.orders o1 h1
        exact ⟨o0, h4, _, h5.trans h2, h3⟩
      · exact htr.orders o ((hm.others o hp).1 hot)
    · intro p hp
      rw [m2] at hp
      rcases (ht.wf.mem_setPair (p' := { x with lastPrice := lp, batchId := x.batchId + 1 }) hx.1 (by rfl)).1 hp with rfl | hp
      · exact m3
      · exact htr.prices p hp.1
    · intro pid d
      by_cases hpid : pid = x.id
      · have := esc2 d
        rw [hsf'] at this
        rw [hpid]
        have h0 := hst x.id d
        omega
      · exact le_trans (hst pid d) ((esc1 pid hpid).2 d)) s.pairs s
    ⟨matching_init hw, fun _ _ => Iff.rfl, rfl, fun _ _ _ _ => rfl, ⟨fun o hm => ⟨o, hm, [], FilledBy.nil rfl rfl rfl rfl, ho o hm⟩, hl⟩, hsl, rfl⟩
  exact ⟨t, h1, h2, h3, h4⟩

theorem computable_range {env : Env} {p q : PoolRec} (h : p.range = q.range) (hc : Computable env p) : Computable env q := by
  intro rx ry ps h1 h2
  have := hc rx ry ps h1 h2
  unfold ammPool at this ⊢
  rw [← h]
  exact this

theorem computable_reach (hw : WF s) {env : Env} {t : State} (hr : Reach s t) (hid : t.lastPoolId = s.lastPoolId) (hwt : WF t)
    {pool : PoolRec} (hp : pool ∈ t.pools) (h : ∀ q ∈ s.pools, q.id = pool.id → Computable env q) : Computable env pool := by
  obtain ⟨q, q1, q2, _, _, q3⟩ := (reach_keeps hw hr).pools pool hp (by rw [← hid]; exact (hwt.poolIds pool hp).2.1)
  exact computable_range q3 (h q q1 q2)

theorem deposits_total (hw : WF s) {env : Env}
    (hc : ∀ r ∈ s.deposits, r.status = .notExecuted → ∀ q ∈ s.pools, q.id = r.poolId → Computable env q) :
    ∃ s', forEach (depositPass env) s.deposits s = some s' := by
  obtain ⟨t, h, _⟩ := forEach_total (f := depositPass env) (fun xs t => Depositing s xs t ∧ ∀ x ∈ xs, x ∈ s.deposits) (by
    rintro x xs t ⟨ht, hs⟩
    have : ∃ t', depositPass env x t = some t' := by
      unfold depositPass
      by_cases hst : x.status = .notExecuted
      · rw [if_pos hst]
        refine deposit_ok ht.wf (ht.pending x (by simp)) hst (fun pool p1 p2 _ => ?_)
        exact computable_reach hw ht.reach ht.frame.lastPoolId ht.wf p1 (fun q q1 q2 => hc x (hs x (by simp)) hst q q1 (q2.trans p2))
      · rw [if_neg hst]; exact ⟨_, rfl⟩
    obtain ⟨t', e⟩ := this
    exact ⟨t', e, deposit_step ht e, fun y hy => hs y (by simp [hy])⟩) s.deposits s
    ⟨⟨hw, Relation.ReflTransGen.refl, hw.depsS.nodup, fun x hx => hx, rfl, rfl, PassFrame.refl s, fun r hr => Or.inl hr⟩, fun x hx => hx⟩
  exact ⟨t, h⟩

theorem withdraws_total (hw : WF s) {env : Env} (hfee : 0 ≤ s.params.withdrawFeeRate ∧ s.params.withdrawFeeRate ≤ Dec.one)
    (hc : ∀ r ∈ s.withdraws, r.status = .notExecuted → ∀ q ∈ s.pools, q.id = r.poolId → Computable env q) :
    ∃ s', forEach (withdrawPass env) s.withdraws s = some s' := by
  obtain ⟨t, h, _⟩ := forEach_total (f := withdrawPass env) (fun xs t => Withdrawing s xs t ∧ ∀ x ∈ xs, x ∈ s.withdraws) (by
    rintro x xs t ⟨ht, hs⟩
    have : ∃ t', withdrawPass env x t = some t' := by
      unfold withdrawPass
      by_cases hst : x.status = .notExecuted
      · rw [if_pos hst]
        refine withdraw_ok ht.wf (ht.pending x (by simp)) hst (by rw [ht.frame.params]; exact hfee) (fun pool p1 p2 _ => ?_)
        exact computable_reach hw ht.reach ht.frame.lastPoolId ht.wf p1 (fun q q1 q2 => hc x (hs x (by simp)) hst q q1 (q2.trans p2))
      · rw [if_neg hst]; exact ⟨_, rfl⟩
    obtain ⟨t', e⟩ := this
    exact ⟨t', e, withdraw_step ht e, fun y hy => hs y (by simp [hy])⟩) s.withdraws s
    ⟨⟨hw, Relation.ReflTransGen.refl, hw.wdsS.nodup, fun x hx => hx, rfl, rfl, PassFrame.refl s, fun r hr => Or.inl hr⟩, fun x hx => hx⟩
  exact ⟨t, h⟩

/-- The end of a block, if it succeeds, keeps the escrow accounts covered. -/
theorem endBlock_slack (hw : WF s) {env : Env} (hs : SaneState env s) (ho : ∀ o ∈ s.orders, Explained o)
    (hl : ∀ p ∈ s.pairs, ∀ lp, p.lastPrice = some lp → 0 < lp) (hh : HighPrices env s) (hsl : ∀ pid d, 0 ≤ escrowSlack s pid d)
    (h : endBlock env s = some s') : ∀ pid d, 0 ≤ escrowSlack s' pid d := by
  unfold endBlock at h
  split at h
  · cases h
  · split at h
    · obtain ⟨s1, e1, m1, hsl1, _⟩ := batch_matching_total hw hs ho hl hh hsl
      unfold executeRequests at h
      rw [e1] at h
      simp only at h
      split at h
      · cases h
      · rename_i s2 e2
        have m2 := expire_all m1.wf e2
        split at h
        · cases h
        · rename_i s3 e3
          have m3 := deposit_all m2.wf e3
          intro pid d
          rw [← ledger_escrow, withdraw_all_ledger m3.wf h, deposit_all_ledger m2.wf e3, expire_ledger m1.wf e2, ledger_escrow]
          exact hsl1 pid d
    · cases h; exact hsl

theorem _root_.Verif.Spec.HighChain.sane {env : Env} (h : HighChain env s) : SaneChain env s := by
  induction h with
  | genesis h => exact .genesis h
  | step _ op hs e ih => exact ih.step op (fun h => (hs h).1) e

theorem high_slack {env : Env} (h : HighChain env s) : ∀ pid d, 0 ≤ escrowSlack s pid d := by
  induction h with
  | @genesis s h =>
    intro pid d
    unfold escrowSlack
    rw [h.orders]
    have := h.nonneg (.pairEscrow pid) d
    simp only [total, List.map_nil, List.sum_nil]
    omega
  | @step s s' hc op hs e ih =>
    have S := sane_of_chain hc.sane
    have S' := sane_of_chain (hc.step op hs e).sane
    by_cases h2 : op = .endBlock
    · subst h2
      exact endBlock_slack S.reach.wf (hs rfl).1 S.orders S.prices (hs rfl).2 ih e
    · intro pid d
      exact (ih pid d).trans (step_slack S.reach.wf S'.reach.wf S.reach.validParams h2 e pid d)

theorem endBlock_total (hw : WF s) {env : Env} (hs : SaneState env s) (ho : ∀ o ∈ s.orders, Explained o)
    (hl : ∀ p ∈ s.pairs, ∀ lp, p.lastPrice = some lp → 0 < lp) (hh : HighPrices env s) (hsl : ∀ pid d, 0 ≤ escrowSlack s pid d)
    (hbs : s.params.batchSize ≠ 0) (hfee : 0 ≤ s.params.withdrawFeeRate ∧ s.params.withdrawFeeRate ≤ Dec.one)
    (hreq : ∀ pool ∈ s.pools, HasRequest s pool → Computable env pool) :
    ∃ s', endBlock env s = some s' := by
  unfold endBlock
  rw [if_neg hbs]
  by_cases hb : s.height % s.params.batchSize = 0
  · rw [if_pos hb]
    obtain ⟨s1, e1, m1, hsl1, hsf1⟩ := batch_matching_total hw hs ho hl hh hsl
    obtain ⟨s2, e2⟩ := expire_total m1.wf (fun p _ d => hsl1 p.id d)
    have m2 := expire_all m1.wf e2
    have hr12 : Reach s s2 := m1.reach.trans m2.reach
    have hid2 : s2.lastPoolId = s.lastPoolId := m2.frame.lastPoolId.trans m1.lastPoolId
    obtain ⟨s3, e3⟩ := deposits_total (env := env) m2.wf (by
      intro r hr hst q hq e
      have hr0 : r ∈ s.deposits := by rw [m2.frame.deposits, m1.deposits] at hr; exact hr
      exact computable_reach hw hr12 hid2 m2.wf hq (fun q' q1 q2 => hreq q' q1 (Or.inl ⟨r, hr0, by rw [q2, e], hst⟩)))
    have m3 := deposit_all m2.wf e3
    obtain ⟨s4, e4⟩ := withdraws_total (env := env) m3.wf (by rw [m3.frame.params, m2.frame.params, m1.params]; exact hfee) (by
      intro r hr hst q hq e
      have hr0 : r ∈ s.withdraws := by rw [m3.withdraws, m2.frame.withdraws, m1.withdraws] at hr; exact hr
      exact computable_reach hw (hr12.trans m3.reach) (m3.frame.lastPoolId.trans hid2) m3.wf hq
        (fun q' q1 q2 => hreq q' q1 (Or.inr ⟨r, hr0, by rw [q2, e], hst⟩)))
    refine ⟨s4, ?_⟩
    unfold executeRequests
    rw [e1]
    simp only
    rw [e2]
    simp only
    rw [e3]
    exact e4
  · rw [if_neg hb]
    exact ⟨s, rfl⟩

end Verif.Dex

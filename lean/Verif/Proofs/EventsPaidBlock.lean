import Verif.Proofs.EventsPaid
/-! # The log is an account statement: batches, messages, histories -/
namespace Verif.Dex
open Verif Verif.Amm Verif.Spec

variable {env : Env} {s s' : State} {log ev : List Event} {a : Addr} {d : Denom}

theorem paid_matching (hw : WF s) {pair : Pair} (hp : pair ∈ s.pairs) (ha : ∀ id, a ≠ .pairEscrow id)
    (hdust : a ≠ s.params.dustCollector) (e : executeMatching env pair s = some s') :
    s'.bank.bal a d = s.bank.bal a d + total (said a d) (executeMatchingEv env pair s) ∧ s'.bank.supply = s.bank.supply := by
  unfold executeMatching at e
  unfold executeMatchingEv
  split at e
  · cases e
  · rename_i s1 os hc
    rw [hc]
    simp only
    have hC := collect_all hw pair.id hc
    have h1 := paid_collect (d := d) hw pair.id ha hc
    simp only at h1
    generalize eachEv collectOrder collectOrderEv (s.ordersOf pair.id) (s, []) = evc at h1 ⊢
    split at e
    · cases e
    · rename_i s2 pools hpl
      rw [hpl]
      simp only
      have hP := collectPool_all hC.wf hpl
      have h2 : s2.bank = s1.bank := hP.bank
      split at e
      · cases e
      · rename_i hk
        rw [hk]
        simp only [List.append_nil]
        have e := Option.some.inj e
        subst e
        show s2.bank.bal a d = _ ∧ s2.bank.supply = _
        rw [h2]; exact h1
      · rename_i out hout
        rw [hout]
        simp only
        split at e
        · cases e
        · rename_i s3 h3
          simp only at e
          have e := Option.some.inj e
          subst e
          obtain ⟨pos, h', k1, k2, k3⟩ := keeperMatch_ids hout
          obtain ⟨u1, u2⟩ := matched_users (fun o ho => (k1 o ho).imp fun _ h => h.2) hC.distinct k2
          rw [← k3] at u1 u2
          have hfr : ∀ o ∈ s2.orders, o.pairId = pair.id → o.status ≠ .notExecuted := by
            intro o ho e1 e2
            rw [hP.orders] at ho
            cases hC.fresh o ho e1 e2
          have hu : ∀ x ∈ out.orders, ∀ oid b, x.kind = .user oid b → ∃ r ∈ s2.orders, r.pairId = pair.id ∧ r.id = oid ∧
              r.done = false := by
            intro x hx oid b hk
            obtain ⟨y, y1, y2, y3⟩ := u1 x hx oid b hk
            obtain ⟨r, r1, r2, r3, r4, r5, _⟩ := hC.src y y1
            refine ⟨r, by rw [hP.orders]; exact r1, r2, ?_, r3⟩
            rw [r5, hk] at y2
            simp only [newUserOrder, newBaseOrder, OKind.user.injEq] at y2
            exact y2.1
          have h4 := paid_applyMatch (d := d) hP.wf hu u2 hfr ha (by rw [hP.params, hC.frame.params]; exact hdust) h3
          refine ⟨?_, ?_⟩
          · show s3.bank.bal a d = _
            rw [h4.1, total_append', h2, h1.1]; ring
          · show s3.bank.supply = _
            rw [h4.2, h2, h1.2]

theorem paid_matchingPass (hw : WF s) (ha : ∀ id, a ≠ .pairEscrow id) (hdust : a ≠ s.params.dustCollector)
    (e : forEach (executeMatching env) s.pairs s = some s') :
    s'.bank.bal a d = s.bank.bal a d + total (said a d) (eachEv (executeMatching env) (executeMatchingEv env) s.pairs s) ∧
      s'.bank.supply = s.bank.supply := by
  have := (eachEv_inv (f := executeMatching env) (ev := executeMatchingEv env) (fun xs t log => Matching s xs t ∧
      Tally a d (s.bank.bal a d) log (t.bank.bal a d) ∧ t.bank.supply = s.bank.supply)
    (fun x xs t t' log ⟨h1, h2, h3⟩ e => by
      have h4 := paid_matching (d := d) h1.wf (h1.pending x (by simp)).1 ha (by rw [h1.params]; exact hdust) e
      exact ⟨matching_step h1 e, h2.add h4.1, h4.2.trans h3⟩) _ _ _ [] ⟨matching_init hw, by simp [Tally, total], rfl⟩ e).2
  rwa [List.nil_append] at this

theorem paid_expirePass (hw : WF s) (ha : ∀ id, a ≠ .pairEscrow id) (e : forEach expireOrder s.orders s = some s') :
    s'.bank.bal a d = s.bank.bal a d + total (said a d) (eachEv expireOrder expireOrderEv s.orders s) ∧
      s'.bank.supply = s.bank.supply := by
  have := (eachEv_inv (f := expireOrder) (ev := expireOrderEv) (fun xs t log => (∀ x ∈ xs, x ∈ s.orders) ∧ Expiring s xs t ∧
      Tally a d (s.bank.bal a d) log (t.bank.bal a d) ∧ t.bank.supply = s.bank.supply)
    (fun x xs t t' log ⟨h0, h1, h2, h3⟩ e => by
      have h4 := paid_expire_step (d := d) h1 ha e
      exact ⟨fun y hy => h0 y (by simp [hy]), expire_step h1 (h0 x (by simp)) e, h2.add h4.1, h4.2.trans h3⟩) _ _ _ []
    ⟨fun x hx => hx, ⟨hw, Relation.ReflTransGen.refl, ⟨hw.ordersS.nodup, fun x hx => hx⟩, SameFrame.refl s,
      fun o ho => ⟨o, ho, Or.inl rfl⟩, fun o ho => Or.inl ho⟩, by simp [Tally, total], rfl⟩ e).2.2
  rwa [List.nil_append] at this

theorem paid_deposit (hw : WF s) (hc : Clean s) {r : DepReq} (hr : r ∈ s.deposits) (hst : r.status = .notExecuted)
    (e : executeDeposit env r s = some s') :
    s'.bank.bal a d = s.bank.bal a d + total (said a d) (executeDepositEv env r s) ∧
      ∀ id, s'.bank.supply (.pool id) = s.bank.supply (.pool id) + total (saidSupply id) (executeDepositEv env r s) := by
  obtain ⟨q, he⟩ := executeDeposit_executed hw hc hr hst e
  obtain ⟨r', st, t, h1, h2, h3, h4, h5, h6, h7, h8⟩ := executeDeposit_ends e
  have hst' : r'.status = .notExecuted := h5.trans hst
  obtain ⟨b, rfl, _⟩ := finishDeposit_spec hst' h2
  have hq : q = { r' with status := st } := deposit_outcome_unique hw hr h6 (by rw [he.outcome.1]; rfl) (t := { t with bank := b }) h3
    ((he.deposits q).2 (Or.inl rfl))
  have hkey := h6
  simp only [DepReq.key, Prod.mk.injEq] at h6
  have hnd := (hw.deps r hr).2.2.2.1
  have hacc : ∀ d, amountOf (coinsSub r'.coins r'.accepted) d = amountOf r.coins d - amountOf r'.accepted d := by
    intro d
    rw [h8, amountOf_sub hnd]
    split
    · rfl
    · rename_i hd
      have h0 : amountOf r.coins d = 0 := amountOf_of_not_mem (fun c hc e => hd (List.mem_map.2 ⟨c, hc, e⟩))
      rcases he.outcome.2 with ⟨_, k, _⟩ | ⟨_, _, k⟩
      · rw [hq] at k
        simp only at k
        rw [k]; rfl
      · have := k d
        rw [hq] at this
        simp only at this
        omega
  rw [h8] at hacc
  rw [h1]
  unfold finishDepositEv
  rw [if_neg (by simp [hst'])]
  refine ⟨?_, fun id => ?_⟩
  · rw [he.bank a d, hq]
    simp only [total, List.map_cons, List.map_nil, List.sum_cons, List.sum_nil, said, hacc, amountOf_single, h7, h6.1, h8]
    have hdd : (d = Denom.pool r.poolId) = (Denom.pool r.poolId = d) := propext eq_comm
    simp only [hdd]
    split_ifs <;> ring
  · rw [he.supply, hq]
    simp only [total, List.map_cons, List.map_nil, List.sum_cons, List.sum_nil, saidSupply, amountOf_single, h6.1]
    simp [eq_comm (a := id)]

theorem paid_withdraw (hw : WF s) (hc : Clean s) {r : WdReq} (hr : r ∈ s.withdraws) (hst : r.status = .notExecuted)
    (e : executeWithdraw env r s = some s') :
    s'.bank.bal a d = s.bank.bal a d + total (said a d) (executeWithdrawEv env r s) ∧
      ∀ id, s'.bank.supply (.pool id) = s.bank.supply (.pool id) + total (saidSupply id) (executeWithdrawEv env r s) := by
  obtain ⟨q, he⟩ := executeWithdraw_executed hw hc hr hst e
  obtain ⟨r', st, t, h1, h2, h3, h4, h5, h6, h7, h8⟩ := executeWithdraw_ends e
  have hst' : r'.status = .notExecuted := h5.trans hst
  obtain ⟨b, rfl⟩ : ∃ b, s' = { t with bank := b }.setWithdraw { r' with status := st } := by
    unfold finishWithdraw at h2
    rw [if_neg (by simp [hst'])] at h2
    split at h2
    · cases h2
    · exact ⟨_, (Option.some.inj h2).symm⟩
  have hq : q = { r' with status := st } := withdraw_outcome_unique hw hr h6 (by rw [he.outcome.1]; rfl) (t := { t with bank := b }) h3
    ((he.withdraws q).2 (Or.inl rfl))
  have hkey := h6
  simp only [WdReq.key, Prod.mk.injEq] at h6
  have hden := (hw.wds r hr).2.2.2
  rcases hcn : r.coin with ⟨cd, ca⟩
  rw [hcn] at hden h8
  simp only at hden
  subst hden
  have hout := he.outcome.2
  rw [hq] at hout
  simp only at hout
  rw [h1]
  unfold finishWithdrawEv
  rw [if_neg (by simp [hst'])]
  refine ⟨?_, fun id => ?_⟩
  · rw [he.bank a d, hq, hcn]
    simp only [total, List.map_cons, List.map_nil, List.sum_cons, List.sum_nil, said, amountOf_single, h7, h6.1, h8]
    have hdd : (d = Denom.pool r.poolId) = (Denom.pool r.poolId = d) := propext eq_comm
    clear e he h1 h2 h3 hq hcn hw hc hr
    rcases hout with ⟨k1, k2⟩ | ⟨k1, k2⟩
    · rw [k1, k2]
      simp only [hdd, reduceCtorEq, false_and, true_and, if_true, if_false, amountOf_nil, amountOf_single, and_comm (a := a = Addr.globalEscrow), ite_and]
      split_ifs <;> simp_all <;> ring
    · rw [k1]
      simp only [hdd, reduceCtorEq, false_and, true_and, if_true, if_false, amountOf_nil, amountOf_single, and_comm (a := a = Addr.globalEscrow), ite_and]
      split_ifs <;> simp_all <;> ring
  · rw [he.supply, hq, hcn]
    simp only [total, List.map_cons, List.map_nil, List.sum_cons, List.sum_nil, saidSupply, h6.1, h8]
    by_cases e1 : r.poolId = id <;> by_cases e2 : st = .succeeded <;> simp [e1, e2, eq_comm (a := id)] <;> ring

theorem paid_depositPass (hw : WF s) (hc : Clean s) (e : forEach (depositPass env) s.deposits s = some s') :
    s'.bank.bal a d = s.bank.bal a d + total (said a d) (eachEv (depositPass env) (depositPassEv env) s.deposits s) ∧
      ∀ id, s'.bank.supply (.pool id) = s.bank.supply (.pool id) +
        total (saidSupply id) (eachEv (depositPass env) (depositPassEv env) s.deposits s) := by
  have := (eachEv_inv (f := depositPass env) (ev := depositPassEv env) (fun xs t log => Depositing s xs t ∧ Clean t ∧
      Tally a d (s.bank.bal a d) log (t.bank.bal a d) ∧
      ∀ id, t.bank.supply (.pool id) = s.bank.supply (.pool id) + total (saidSupply id) log)
    (by
      rintro x xs t t' log ⟨h1, h2, h3, h4⟩ e
      have hd := deposit_step h1 e
      have hx := h1.pending x (by simp)
      unfold depositPass at e
      unfold depositPassEv
      split at e
      · rename_i hst
        rw [if_pos hst]
        have hp := paid_deposit (a := a) (d := d) h1.wf h2 hx hst e
        obtain ⟨r', he⟩ := executeDeposit_executed h1.wf h2 hx hst e
        have hst' : r'.status ≠ .notExecuted := by
          rcases he.outcome.2 with h | h
          · rw [h.1]; simp
          · rw [h.1]; simp
        refine ⟨hd, ⟨?_, ?_⟩, h3.add hp.1, fun id => ?_⟩
        · intro r hr hs
          rcases (he.deposits r).1 hr with rfl | ⟨h, _⟩
          · exact absurd hs hst'
          · exact h2.1 r h hs
        · rw [he.rest.2.2.2.2.1]; exact h2.2
        · rw [hp.2 id, h4 id, total_append']; ring
      · rename_i hst
        rw [if_neg hst, List.append_nil]
        have e := Option.some.inj e
        subst e
        exact ⟨hd, h2, h3, h4⟩) _ _ _ []
    ⟨⟨hw, Relation.ReflTransGen.refl, hw.depsS.nodup, fun x hx => hx, rfl, rfl, PassFrame.refl s, fun r hr => Or.inl hr⟩, hc,
      by simp [Tally, total], by simp [total]⟩ e).2.2
  rw [List.nil_append] at this
  exact this

theorem paid_withdrawPass (hw : WF s) (hc : Clean s) (e : forEach (withdrawPass env) s.withdraws s = some s') :
    s'.bank.bal a d = s.bank.bal a d + total (said a d) (eachEv (withdrawPass env) (withdrawPassEv env) s.withdraws s) ∧
      ∀ id, s'.bank.supply (.pool id) = s.bank.supply (.pool id) +
        total (saidSupply id) (eachEv (withdrawPass env) (withdrawPassEv env) s.withdraws s) := by
  have := (eachEv_inv (f := withdrawPass env) (ev := withdrawPassEv env) (fun xs t log => Withdrawing s xs t ∧ Clean t ∧
      Tally a d (s.bank.bal a d) log (t.bank.bal a d) ∧
      ∀ id, t.bank.supply (.pool id) = s.bank.supply (.pool id) + total (saidSupply id) log)
    (by
      rintro x xs t t' log ⟨h1, h2, h3, h4⟩ e
      have hd := withdraw_step h1 e
      have hx := h1.pending x (by simp)
      unfold withdrawPass at e
      unfold withdrawPassEv
      split at e
      · rename_i hst
        rw [if_pos hst]
        have hp := paid_withdraw (a := a) (d := d) h1.wf h2 hx hst e
        obtain ⟨r', he⟩ := executeWithdraw_executed h1.wf h2 hx hst e
        have hst' : r'.status ≠ .notExecuted := by
          rcases he.outcome.2 with h | h
          · rw [h.1]; simp
          · rw [h.1]; simp
        refine ⟨hd, ⟨?_, ?_⟩, h3.add hp.1, fun id => ?_⟩
        · rw [he.rest.2.2.2.2.1]; exact h2.1
        · intro r hr hs
          rcases (he.withdraws r).1 hr with rfl | ⟨h, _⟩
          · exact absurd hs hst'
          · exact h2.2 r h hs
        · rw [hp.2 id, h4 id, total_append']; ring
      · rename_i hst
        rw [if_neg hst, List.append_nil]
        have e := Option.some.inj e
        subst e
        exact ⟨hd, h2, h3, h4⟩) _ _ _ []
    ⟨⟨hw, Relation.ReflTransGen.refl, hw.wdsS.nodup, fun x hx => hx, rfl, rfl, PassFrame.refl s, fun r hr => Or.inl hr⟩, hc,
      by simp [Tally, total], by simp [total]⟩ e).2.2
  rw [List.nil_append] at this
  exact this

theorem paid_requests (hw : WF s) (hc : Clean s) (ha : ∀ id, a ≠ .pairEscrow id) (hdust : a ≠ s.params.dustCollector)
    (e : executeRequests env s = some s') :
    s'.bank.bal a d = s.bank.bal a d + total (said a d) (executeRequestsEv env s) := by
  unfold executeRequests at e
  unfold executeRequestsEv
  split at e
  · cases e
  · rename_i s1 h1
    rw [h1]
    simp only
    have m1 := matching_all hw h1
    split at e
    · cases e
    · rename_i s2 h2
      rw [h2]
      simp only
      have m2 := expire_all m1.wf h2
      split at e
      · cases e
      · rename_i s3 h3
        rw [h3]
        simp only
        have m3 := deposit_all m2.wf h3
        have c2 : Clean s2 := by
          constructor
          · rw [m2.frame.deposits, m1.deposits]; exact hc.1
          · rw [m2.frame.withdraws, m1.withdraws]; exact hc.2
        have c3 := (deposit_pass_spec m2.wf c2 h3).1
        simp only [total_append']
        rw [(paid_withdrawPass m3.wf c3 e).1, (paid_depositPass m2.wf c2 h3).1, (paid_expirePass m1.wf ha h2).1, (paid_matchingPass hw ha hdust h1).1]
        ring

theorem saidSupply_off {id : Nat} (h : ∀ e ∈ ev, e.topic = .order ∨ e.topic = .other) : total (saidSupply id) ev = 0 := by
  refine total_zero (fun e he => ?_)
  have := h e he
  cases e <;> simp [Event.topic] at this <;> rfl

theorem supply_requests (hw : WF s) (hc : Clean s) (e : executeRequests env s = some s') (id : Nat) :
    s'.bank.supply (.pool id) = s.bank.supply (.pool id) + total (saidSupply id) (executeRequestsEv env s) := by
  unfold executeRequests at e
  unfold executeRequestsEv
  split at e
  · cases e
  · rename_i s1 h1
    rw [h1]
    simp only
    have m1 := matching_all hw h1
    have b1 : s1.bank.supply = s.bank.supply := rel_forEach supply_rel (fun s : State => s.bank) (fun x a b e => rel_executeMatching supply_rel e) h1
    split at e
    · cases e
    · rename_i s2 h2
      rw [h2]
      simp only
      have m2 := expire_all m1.wf h2
      have b2 : s2.bank.supply = s1.bank.supply := rel_forEach supply_rel (fun s : State => s.bank) (fun x a b e => rel_expireOrder supply_rel e) h2
      split at e
      · cases e
      · rename_i s3 h3
        rw [h3]
        simp only
        have m3 := deposit_all m2.wf h3
        have c2 : Clean s2 := by
          constructor
          · rw [m2.frame.deposits, m1.deposits]; exact hc.1
          · rw [m2.frame.withdraws, m1.withdraws]; exact hc.2
        have c3 := (deposit_pass_spec m2.wf c2 h3).1
        simp only [total_append']
        rw [saidSupply_off (ev := eachEv (executeMatching env) (executeMatchingEv env) s.pairs s)
            (eachEv_topic (Q := fun e => e.topic = .order ∨ e.topic = .other) (fun x s => topic_matching) _ _),
          saidSupply_off (ev := eachEv expireOrder expireOrderEv s1.orders s1)
            (eachEv_topic (Q := fun e => e.topic = .order ∨ e.topic = .other) (fun x s => topic_expire) _ _),
          (paid_withdrawPass (a := .dexModule) (d := .native 0) m3.wf c3 e).2 id,
          (paid_depositPass (a := .dexModule) (d := .native 0) m2.wf c2 h3).2 id, b2, b1]
        ring

end Verif.Dex

import Verif.Proofs.EventsBatch
import Verif.Proofs.BatchSpec
/-! # The events of a block -/
namespace Verif.Dex
open Verif Verif.Amm Verif.Spec

variable {s s' : State} {log ev : List Event}

theorem TellsO.same (h : TellsO s log) (he : Evolves s s') (ho : s'.orders = s.orders) : TellsO s' log := by
  have := h.neutral he ho (ev := []) (by simp)
  rwa [List.append_nil] at this
theorem TellsD.same (h : TellsD s log) (he : Evolves s s') (ho : s'.deposits = s.deposits) : TellsD s' log := by
  have := h.neutral he ho (ev := []) (by simp)
  rwa [List.append_nil] at this
theorem TellsW.same (h : TellsW s log) (he : Evolves s s') (ho : s'.withdraws = s.withdraws) : TellsW s' log := by
  have := h.neutral he ho (ev := []) (by simp)
  rwa [List.append_nil] at this

theorem tells_applyAll {pair : Pair} {s0 : State} {os : List Order}
    (hdir : ∀ x ∈ os, ∀ oid b, x.kind = .user oid b → ∀ r ∈ s0.orders, r.pairId = pair.id → r.id = oid → x.dir = r.dir) :
    ∀ (xs ys : List Order) (st st' : ApplyState) (log : List Event), (∀ x ∈ xs, x ∈ os) → Applying pair.id s0 ys xs st → TellsO st.s log →
    forEach (applyOrder pair) xs st = some st' → TellsO st'.s (log ++ eachEv (applyOrder pair) (applyOrderEv pair) xs st) := by
  intro xs
  induction xs with
  | nil =>
    intro ys st st' log _ _ h e
    simp only [forEach, Option.some.injEq] at e
    subst e
    simpa [eachEv] using h
  | cons x xs ih =>
    intro ys st st' log hsub ha h e
    simp only [forEach, Option.bind_eq_some_iff] at e
    obtain ⟨t, e1, e2⟩ := e
    have := ih _ _ _ _ (fun y hy => hsub y (by simp [hy])) (apply_step ha e1)
      (tells_apply_step ha (hdir x (hsub x (by simp))) h e1) e2
    unfold eachEv
    rw [e1]
    simpa [List.append_assoc] using this

theorem tells_applyMatch (h : TellsO s log) (hw : WF s) {pair : Pair} {os : List Order} {diff : Int}
    (hu : ∀ x ∈ os, ∀ oid b, x.kind = .user oid b → ∃ r ∈ s.orders, r.pairId = pair.id ∧ r.id = oid ∧ r.done = false)
    (hd : os.Pairwise (fun a b => userId a ≠ none → userId a ≠ userId b))
    (hf : ∀ o ∈ s.orders, o.pairId = pair.id → o.status ≠ .notExecuted)
    (hdir : ∀ x ∈ os, ∀ oid b, x.kind = .user oid b → ∀ r ∈ s.orders, r.pairId = pair.id → r.id = oid → x.dir = r.dir)
    (e : applyMatchResult pair os diff s = some s') : TellsO s' (log ++ applyMatchEv pair os s) := by
  unfold applyMatchResult at e
  unfold applyMatchEv
  split at e
  · cases e
  · rename_i b hb
    rw [hb]
    simp only
    split at e
    · cases e
    · rename_i st hst
      split at e
      · cases e
      · rename_i b2 hb2
        have e := Option.some.inj e
        subst e
        obtain ⟨ra, wa⟩ := setOrder_bank_reach hw (bankStep_run hb) (keeps_run hb (by
          intro t ht e
          obtain ⟨id, hid⟩ := queuePool_src (os := os) (op := []) (by simp) t ht
          rw [e] at hid; cases hid))
        have hA0 : Applying pair.id { s with bank := b } [] os ⟨{ s with bank := b }, [], []⟩ :=
          ⟨wa, Relation.ReflTransGen.refl, hu, hd, hf, by simp, SameFrame.refl _, fun o ho _ => ho,
            fun o ho => ⟨o, ho, SameOrder.refl o, id, fun e => absurd rfl e, fun e1 e2 => by rw [e1] at e2; cases e2⟩,
            fun o ho => Or.inl ho⟩
        have hA := apply_all os [] _ st hA0 hst
        have h1 := tells_applyAll (s0 := { s with bank := b }) hdir os [] _ st log (fun _ hx => hx) hA0 (h.same (reach_evolves hw ra) rfl) hst
        obtain ⟨rb, wb⟩ := setOrder_bank_reach hA.wf (bankStep_run hb2) (keeps_run hb2 (by
          intro t ht e
          rcases mem_queue ht with h1 | h1
          · rw [h1.1] at e; cases e
          · rw [hA.src t h1] at e; cases e))
        have h2 := h1.neutral (reach_evolves hA.wf rb) rfl (ev := (poolMatches os []).map (fun r => .poolMatched r.dir pair.id r.poolId
          r.matched ⟨pair.offerDenom r.dir, r.paid⟩ ⟨pair.demandDenom r.dir, r.received⟩)) (by
          intro e he
          obtain ⟨r, _, rfl⟩ := List.mem_map.1 he
          simp [Event.topic])
        rwa [List.append_assoc] at h2

theorem tells_matching (h : TellsO s log) (hw : WF s) {env : Env} {pair : Pair} (hp : pair ∈ s.pairs)
    (e : executeMatching env pair s = some s') : TellsO s' (log ++ executeMatchingEv env pair s) := by
  have hreach := (executeMatching_spec hw hp e).reach
  unfold executeMatching at e
  unfold executeMatchingEv
  split at e
  · cases e
  · rename_i s1 os hc
    rw [hc]
    simp only
    have hC := collect_all hw pair.id hc
    have h1 := tells_collect h hw pair.id hc
    simp only at h1
    generalize eachEv collectOrder collectOrderEv (s.ordersOf pair.id) (s, []) = evc at h1 ⊢
    split at e
    · cases e
    · rename_i s2 pools hpl
      rw [hpl]
      simp only
      have hP := collectPool_all hC.wf hpl
      have h2 : TellsO s2 (log ++ evc) := h1.same (reach_evolves hC.wf hP.reach) hP.orders
      split at e
      · cases e
      · rename_i hk
        rw [hk]
        simp only [List.append_nil]
        have e := Option.some.inj e
        subst e
        have hp2 : pair ∈ s2.pairs := by rw [hP.pairs]; rw [hC.frame.pairs]; exact hp
        exact h2.same (evolves_setPair hP.wf hp2 rfl rfl rfl (le_refl _) (by simp)) rfl
      · rename_i out hout
        rw [hout]
        simp only
        split at e
        · cases e
        · rename_i s3 h3
          simp only at e
          have e := Option.some.inj e
          subst e
          obtain ⟨pos, h', k1, k2, k3⟩ := keeperMatch_ids hout
          obtain ⟨u1, u2⟩ := matched_users (fun o ho => (k1 o ho).imp fun _ h => h.2) hC.distinct k2
          rw [← k3] at u1 u2
          have hfr : ∀ o ∈ s2.orders, o.pairId = pair.id → o.status ≠ .notExecuted := by
            intro o ho e1 e2
            rw [hP.orders] at ho
            cases hC.fresh o ho e1 e2
          have hp2 : pair ∈ s2.pairs := by rw [hP.pairs]; rw [hC.frame.pairs]; exact hp
          have hux : ∀ x ∈ out.orders, ∀ oid b, x.kind = .user oid b → ∃ r ∈ s2.orders, r.pairId = pair.id ∧ r.id = oid ∧
              r.done = false ∧ x.dir = r.dir := by
            intro x hx oid b hk
            obtain ⟨y, y1, y2, y3⟩ := u1 x hx oid b hk
            obtain ⟨r, r1, r2, r3, r4, r5, _⟩ := hC.src y y1
            refine ⟨r, by rw [hP.orders]; exact r1, r2, ?_, r3, ?_⟩
            · rw [r5, hk] at y2
              simp only [newUserOrder, newBaseOrder, OKind.user.injEq] at y2
              exact y2.1
            · rw [← y3, r5]; rfl
          have hu : ∀ x ∈ out.orders, ∀ oid b, x.kind = .user oid b → ∃ r ∈ s2.orders, r.pairId = pair.id ∧ r.id = oid ∧
              r.done = false := by
            intro x hx oid b hk
            obtain ⟨r, a1, a2, a3, a4, _⟩ := hux x hx oid b hk
            exact ⟨r, a1, a2, a3, a4⟩
          have hA := applyMatchResult_spec hP.wf (pair := pair) hu u2 hfr h3
          have h4 := tells_applyMatch h2 hP.wf hu u2 hfr (by
            intro x hx oid b hk r hr e1 e2
            obtain ⟨r', a1, a2, a3, _, a5⟩ := hux x hx oid b hk
            have : r' = r := hP.wf.ordersS.inj a1 hr (by simp [OrderRec.key, a2, a3, e1, e2])
            rw [← this]; exact a5) h3
          have hp3 : pair ∈ s3.pairs := by rw [hA.frame.pairs]; exact hp2
          have ha := Atom.nextBatch (s := s3) pair (some out.price)
            (fun id => s3.shortfall id + (if id = pair.id then baseImbalance out.orders else 0)) hp3 hA.fresh
          rw [List.append_assoc] at h4
          exact h4.same (evolves_atom hA.wf ha) rfl

theorem tells_expire_step {x : OrderRec} {xs : List OrderRec} {s0 t t' : State} (h : Expiring s0 (x :: xs) t) (ht : TellsO t log)
    (e : expireOrder x t = some t') : TellsO t' (log ++ expireOrderEv x t) := by
  have hx := h.pending.2 x (by simp)
  unfold expireOrder at e
  unfold expireOrderEv
  split at e
  · rename_i hc
    rw [if_pos hc]
    exact (tells_finish ht h.wf hx rfl e).1
  · rename_i hc
    rw [if_neg hc]
    split at e
    · rename_i hc
      rw [if_pos hc]
      exact (tells_finish ht h.wf hx rfl e).1
    · rename_i hc
      rw [if_neg hc, List.append_nil]
      have e := Option.some.inj e
      subst e
      exact ht

theorem tells_matchingPass (h : TellsO s log) (hw : WF s) {env : Env} (e : forEach (executeMatching env) s.pairs s = some s') :
    TellsO s' (log ++ eachEv (executeMatching env) (executeMatchingEv env) s.pairs s) :=
  (eachEv_inv (f := executeMatching env) (ev := executeMatchingEv env) (fun xs t log => Matching s xs t ∧ TellsO t log)
    (fun x xs t t' log ⟨h1, h2⟩ e => ⟨matching_step h1 e, tells_matching h2 h1.wf (h1.pending x (by simp)).1 e⟩) _ _ _ _
    ⟨matching_init hw, h⟩ e).2

theorem tells_expirePass (h : TellsO s log) (hw : WF s) (e : forEach expireOrder s.orders s = some s') :
    TellsO s' (log ++ eachEv expireOrder expireOrderEv s.orders s) := by
  refine (eachEv_inv (f := expireOrder) (ev := expireOrderEv) (fun xs t log => (∀ x ∈ xs, x ∈ s.orders) ∧ Expiring s xs t ∧ TellsO t log)
    (fun x xs t t' log ⟨h0, h1, h2⟩ e => ⟨fun y hy => h0 y (by simp [hy]), expire_step h1 (h0 x (by simp)) e,
      tells_expire_step h1 h2 e⟩) _ _ _ _ ⟨fun x hx => hx, ?_, h⟩ e).2.2
  exact ⟨hw, Relation.ReflTransGen.refl, ⟨hw.ordersS.nodup, fun x hx => hx⟩, SameFrame.refl s,
      fun o ho => ⟨o, ho, Or.inl rfl⟩, fun o ho => Or.inl ho⟩

/-! ## Requests -/

theorem finishDepositEv_topic {r : DepReq} {st : ReqStatus} : ∀ e ∈ finishDepositEv r st, e.topic = .deposit := by
  intro e he
  unfold finishDepositEv at he
  split at he
  · simp at he
  · simp only [List.mem_singleton] at he; subst he; rfl

theorem finishWithdrawEv_topic {r : WdReq} {st : ReqStatus} : ∀ e ∈ finishWithdrawEv r st, e.topic = .withdraw := by
  intro e he
  unfold finishWithdrawEv at he
  split at he
  · simp at he
  · simp only [List.mem_singleton] at he; subst he; rfl

/-- Executing a deposit request ends in finishing it, with the event of that. -/
theorem executeDeposit_ends {env : Env} {r : DepReq} (e : executeDeposit env r s = some s') :
    ∃ r' st t, executeDepositEv env r s = finishDepositEv r' st ∧ finishDeposit r' st t = some s' ∧ t.deposits = s.deposits ∧
      st ≠ .notExecuted ∧ r'.status = r.status ∧ r'.key = r.key ∧ r'.depositor = r.depositor ∧ r'.coins = r.coins := by
  unfold executeDeposit at e
  unfold executeDepositEv
  split at e
  · cases e
  · rename_i pool hp
    rw [hp]
    simp only
    split at e
    · rename_i hc
      rw [if_pos hc]
      exact ⟨r, .failed, s, rfl, e, rfl, by simp, rfl, rfl, rfl, rfl⟩
    · rename_i hc
      rw [if_neg hc]
      split at e
      · cases e
      · rename_i pair hpair
        rw [hpair]
        simp only at e ⊢
        split at e
        · cases e
        · rename_i ap hap
          rw [hap]
          simp only
          split at e
          · rename_i hc
            rw [if_pos hc]
            exact ⟨r, .failed, _, rfl, e, rfl, by simp, rfl, rfl, rfl, rfl⟩
          · rename_i hc
            rw [if_neg hc]
            split at e
            · cases e
            · rename_i ax ay pc hdep
              rw [hdep]
              simp only
              split at e
              · rename_i hc
                rw [if_pos hc]
                exact ⟨r, .failed, s, rfl, e, rfl, by simp, rfl, rfl, rfl, rfl⟩
              · rename_i hc
                rw [if_neg hc]
                split at e
                · cases e
                · split at e
                  · cases e
                  · exact ⟨_, .succeeded, _, rfl, e, rfl, by simp, rfl, rfl, rfl, rfl⟩

/-- Executing a withdraw request ends in finishing it, with the event of that. -/
theorem executeWithdraw_ends {env : Env} {r : WdReq} (e : executeWithdraw env r s = some s') :
    ∃ r' st t, executeWithdrawEv env r s = finishWithdrawEv r' st ∧ finishWithdraw r' st t = some s' ∧ t.withdraws = s.withdraws ∧
      st ≠ .notExecuted ∧ r'.status = r.status ∧ r'.key = r.key ∧ r'.withdrawer = r.withdrawer ∧ r'.coin = r.coin := by
  unfold executeWithdraw at e
  unfold executeWithdrawEv
  split at e
  · cases e
  · rename_i pool hp
    rw [hp]
    simp only
    split at e
    · rename_i hc
      rw [if_pos hc]
      exact ⟨r, .failed, s, rfl, e, rfl, by simp, rfl, rfl, rfl, rfl⟩
    · rename_i hc
      rw [if_neg hc]
      split at e
      · cases e
      · rename_i pair hpair
        rw [hpair]
        simp only at e ⊢
        split at e
        · cases e
        · rename_i ap hap
          rw [hap]
          simp only
          split at e
          · rename_i hc
            rw [if_pos hc]
            exact ⟨r, .failed, _, rfl, e, rfl, by simp, rfl, rfl, rfl, rfl⟩
          · rename_i hc
            rw [if_neg hc]
            split at e
            · cases e
            · rename_i x y hwd
              rw [hwd]
              simp only
              split at e
              · rename_i hc
                rw [if_pos hc]
                exact ⟨r, .failed, s, rfl, e, rfl, by simp, rfl, rfl, rfl, rfl⟩
              · rename_i hc
                rw [if_neg hc]
                split at e
                · cases e
                · split at e
                  · cases e
                  · refine ⟨_, .succeeded, _, rfl, e, ?_, by simp, rfl, rfl, rfl, rfl⟩
                    split <;> rfl

theorem tells_deposit_step {env : Env} {r : DepReq} (h : TellsD s log) (hw : WF s) (hr : r ∈ s.deposits)
    (e : depositPass env r s = some s') : TellsD s' (log ++ depositPassEv env r s) := by
  unfold depositPass at e
  unfold depositPassEv
  split at e
  · rename_i hst
    rw [if_pos hst]
    have hev := reach_evolves hw (executeDeposit_reach hw hr hst e)
    obtain ⟨r', st, t, h1, h2, h3, h4, h5, h6, h7, h8⟩ := executeDeposit_ends e
    have hst' : r'.status = .notExecuted := h5.trans hst
    obtain ⟨b, rfl, _⟩ := finishDeposit_spec hst' h2
    have hkey := h6
    simp only [DepReq.key, Prod.mk.injEq] at h6
    rw [h1]
    unfold TellsD at *
    refine Tells.update h (o := r) (o' := { r' with status := st }) hr ?_ hkey (fun x hx e => hw.depsS.inj hx hr e)
      (freshDeposit_back hev) ?_ ?_
    · intro x
      show x ∈ upsert DepReq.key _ t.deposits ↔ _
      rw [h3]
      exact hw.mem_setDeposit hr hkey
    · unfold finishDepositEv
      rw [if_neg (by simp [hst'])]
      simp only [List.foldl_cons, List.foldl_nil, readDeposit, DepReq.key]
      rw [if_pos ⟨h6.1, h6.2⟩]
      have hres : (viewOfDeposit r).result = none := by unfold viewOfDeposit; rw [hst]
      rw [if_pos ⟨hres, h7, h8⟩]
      unfold viewOfDeposit coinsSub
      simp only [h7, h8]
    · intro k t' hk
      refine foldl_still (fun ev hev' t2 => ?_)
      unfold finishDepositEv at hev'
      rw [if_neg (by simp [hst'])] at hev'
      simp only [List.mem_singleton] at hev'
      subst hev'
      simp only [readDeposit]
      rw [if_neg]
      rintro ⟨e1, e2⟩
      exact hk (by unfold DepReq.key; rw [← h6.1, ← h6.2, e1, e2])
  · rename_i hst
    rw [if_neg hst, List.append_nil]
    have e := Option.some.inj e
    subst e
    exact h

theorem tells_withdraw_step {env : Env} {r : WdReq} (h : TellsW s log) (hw : WF s) (hr : r ∈ s.withdraws)
    (e : withdrawPass env r s = some s') : TellsW s' (log ++ withdrawPassEv env r s) := by
  unfold withdrawPass at e
  unfold withdrawPassEv
  split at e
  · rename_i hst
    rw [if_pos hst]
    have hev := reach_evolves hw (executeWithdraw_reach hw hr hst e)
    obtain ⟨r', st, t, h1, h2, h3, h4, h5, h6, h7, h8⟩ := executeWithdraw_ends e
    have hst' : r'.status = .notExecuted := h5.trans hst
    obtain ⟨b, rfl⟩ : ∃ b, s' = { t with bank := b }.setWithdraw { r' with status := st } := by
      unfold finishWithdraw at h2
      rw [if_neg (by simp [hst'])] at h2
      split at h2
      · cases h2
      · exact ⟨_, (Option.some.inj h2).symm⟩
    have hkey := h6
    simp only [WdReq.key, Prod.mk.injEq] at h6
    rw [h1]
    unfold TellsW at *
    refine Tells.update h (o := r) (o' := { r' with status := st }) hr ?_ hkey (fun x hx e => hw.wdsS.inj hx hr e)
      (freshWithdraw_back hev) ?_ ?_
    · intro x
      show x ∈ upsert WdReq.key _ t.withdraws ↔ _
      rw [h3]
      exact hw.mem_setWithdraw hr hkey
    · unfold finishWithdrawEv
      rw [if_neg (by simp [hst'])]
      simp only [List.foldl_cons, List.foldl_nil, readWithdraw, WdReq.key]
      rw [if_pos ⟨h6.1, h6.2⟩]
      have hres : (viewOfWithdraw r).result = none := by unfold viewOfWithdraw; rw [hst]
      rw [if_pos ⟨hres, h7, h8⟩]
      unfold viewOfWithdraw
      simp only [h7, h8]
      cases st
      · exact absurd rfl h4
      · rfl
      · rfl
    · intro k t' hk
      refine foldl_still (fun ev hev' t2 => ?_)
      unfold finishWithdrawEv at hev'
      rw [if_neg (by simp [hst'])] at hev'
      simp only [List.mem_singleton] at hev'
      subst hev'
      simp only [readWithdraw]
      rw [if_neg]
      rintro ⟨e1, e2⟩
      exact hk (by unfold WdReq.key; rw [← h6.1, ← h6.2, e1, e2])
  · rename_i hst
    rw [if_neg hst, List.append_nil]
    have e := Option.some.inj e
    subst e
    exact h

theorem tells_depositPass (h : TellsD s log) (hw : WF s) {env : Env} (e : forEach (depositPass env) s.deposits s = some s') :
    TellsD s' (log ++ eachEv (depositPass env) (depositPassEv env) s.deposits s) := by
  refine (eachEv_inv (f := depositPass env) (ev := depositPassEv env) (fun xs t log => Depositing s xs t ∧ TellsD t log)
    (fun x xs t t' log ⟨h1, h2⟩ e => ⟨deposit_step h1 e, tells_deposit_step h2 h1.wf (h1.pending x (by simp)) e⟩) _ _ _ _
    ⟨?_, h⟩ e).2
  exact ⟨hw, Relation.ReflTransGen.refl, hw.depsS.nodup, fun x hx => hx, rfl, rfl, PassFrame.refl s, fun r hr => Or.inl hr⟩

theorem tells_withdrawPass (h : TellsW s log) (hw : WF s) {env : Env} (e : forEach (withdrawPass env) s.withdraws s = some s') :
    TellsW s' (log ++ eachEv (withdrawPass env) (withdrawPassEv env) s.withdraws s) := by
  refine (eachEv_inv (f := withdrawPass env) (ev := withdrawPassEv env) (fun xs t log => Withdrawing s xs t ∧ TellsW t log)
    (fun x xs t t' log ⟨h1, h2⟩ e => ⟨withdraw_step h1 e, tells_withdraw_step h2 h1.wf (h1.pending x (by simp)) e⟩) _ _ _ _
    ⟨?_, h⟩ e).2
  exact ⟨hw, Relation.ReflTransGen.refl, hw.wdsS.nodup, fun x hx => hx, rfl, rfl, PassFrame.refl s, fun r hr => Or.inl hr⟩

end Verif.Dex

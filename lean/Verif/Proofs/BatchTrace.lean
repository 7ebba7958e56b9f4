import Verif.Proofs.BatchSpec
import Verif.Proofs.NoLoss
import Verif.Proofs.LedgerBatch
/-! # A batch as a sequence of turns -/
namespace Verif.Dex
open Verif Verif.Amm Verif.Spec

variable {s s' : State}

theorem forEach_turns {α : Type} {f : α → State → Option State} {R : α → State → State → Prop} (P : List α → State → Prop)
    (hstep : ∀ x xs s s', P (x :: xs) s → f x s = some s' → P xs s' ∧ R x s s') :
    ∀ (l : List α) (s s' : State), P l s → forEach f l s = some s' → InTurn R l s s' ∧ P [] s' := by
  intro l
  induction l with
  | nil => intro s s' h e; simp only [forEach, Option.some.injEq] at e; subst e; exact ⟨.nil _, h⟩
  | cons x xs ih =>
    intro s s' h e
    simp only [forEach, Option.bind_eq_some_iff] at e
    obtain ⟨s1, e1, e2⟩ := e
    obtain ⟨h1, h2⟩ := hstep x xs s s1 h e1
    exact ⟨.cons h2 (ih s1 s' h1 e2).1, (ih s1 s' h1 e2).2⟩

theorem ammPool_depleted {env : Env} {pool : PoolRec} {rx ry ps : Int} {ap : Pool} (h : ammPool env pool rx ry ps = some ap) :
    ap.isDepleted = true ↔ PoolEmpty pool rx ry ps := by
  unfold ammPool at h
  split at h
  · rename_i hr
    have h := Option.some.inj h
    subst h
    simp only [newBasicPool, Pool.isDepleted, PoolEmpty, hr, Bool.or_eq_true, beq_iff_eq]
    tauto
  · rename_i lo hi hr
    have : ap.rx = rx ∧ ap.ry = ry ∧ ap.ps = ps ∧ ap.range.isSome = true := by
      unfold newRangedPool at h
      simp only [Option.bind_eq_bind, Option.bind_eq_some_iff, Option.pure_def, Option.some.injEq] at h
      obtain ⟨⟨tx, ty⟩, _, h⟩ := h
      subst h; simp
    obtain ⟨e1, e2, e3, e4⟩ := this
    rw [Option.isSome_iff_exists] at e4
    obtain ⟨v, e4⟩ := e4
    simp only [Pool.isDepleted, e4, PoolEmpty, hr, Bool.or_eq_true, Bool.and_eq_true, beq_iff_eq, e1, e2, e3]
    simp

/-- The stored outcome of a deposit request. -/
theorem deposit_outcome_unique (hw : WF s) {r r' q : DepReq} (hr : r ∈ s.deposits) (hq : q.key = r.key) (hk : r'.key = r.key)
    {t : State} (ht : t.deposits = s.deposits) (h : r' ∈ (t.setDeposit q).deposits) : r' = q := by
  have h : r' ∈ upsert DepReq.key q t.deposits := h
  rw [ht] at h
  rcases (hw.mem_setDeposit hr hq).1 h with h | ⟨h1, h2⟩
  · exact h
  · exact absurd (hw.depsS.inj h1 hr hk) h2

theorem withdraw_outcome_unique (hw : WF s) {r r' q : WdReq} (hr : r ∈ s.withdraws) (hq : q.key = r.key) (hk : r'.key = r.key)
    {t : State} (ht : t.withdraws = s.withdraws) (h : r' ∈ (t.setWithdraw q).withdraws) : r' = q := by
  have h : r' ∈ upsert WdReq.key q t.withdraws := h
  rw [ht] at h
  rcases (hw.mem_setWithdraw hr hq).1 h with h | ⟨h1, h2⟩
  · exact h
  · exact absurd (hw.wdsS.inj h1 hr hk) h2

theorem executeDeposit_priced (hw : WF s) {env : Env} {r r' : DepReq} (hr : r ∈ s.deposits) (hst : r.status = .notExecuted)
    (h : executeDeposit env r s = some s') (hr' : r' ∈ s'.deposits) (hk : r'.key = r.key) : DepositPriced env r r' s s' := by
  have fin : ∀ {q : DepReq} {st : ReqStatus} {t : State}, q.key = r.key → q.status = .notExecuted → t.deposits = s.deposits →
      finishDeposit q st t = some s' → r' = { q with status := st } ∧ s'.pools = t.pools := by
    intro q st t hq hqs ht hf
    obtain ⟨b, e, _⟩ := finishDeposit_spec hqs hf
    rw [e] at hr'
    exact ⟨deposit_outcome_unique hw (q := { q with status := st }) hr hq hk (t := { t with bank := b }) ht hr', by rw [e]; rfl⟩
  unfold executeDeposit at h
  split at h
  · cases h
  · rename_i pool hp
    obtain ⟨p1, p2⟩ := hw.getPool_iff.1 hp
    obtain ⟨q, q1, q2⟩ := (hw.poolIds pool p1).2.2
    split at h
    · rename_i hdis
      obtain ⟨this, hpl⟩ := fin rfl hst rfl h
      exact ⟨pool, p1, q, q1, p2, q2, Or.inl ⟨hdis, by rw [this], by rw [hpl]; exact p1⟩⟩
    · rename_i hdis
      split at h
      · cases h
      · rename_i pair hpair
        obtain ⟨r1, r2⟩ := hw.getPair_iff.1 hpair
        simp only at h
        refine ⟨pool, p1, pair, r1, p2, r2, ?_⟩
        simp only
        split at h
        · cases h
        · rename_i ap hap
          have hdep := ammPool_depleted hap
          split at h
          · rename_i hd
            obtain ⟨this, hpl⟩ := fin (t := s.markDisabled pool) rfl hst rfl h
            exact Or.inr (Or.inl ⟨by simpa using hdis, hdep.1 hd, by rw [this], by rw [hpl]; exact (hw.mem_setPool p1 (p' := { pool with disabled := true }) rfl).2 (Or.inl rfl)⟩)
          · rename_i hd
            refine Or.inr (Or.inr ⟨by simpa using hdis, fun e => hd (hdep.2 e), ?_⟩)
            split at h
            · cases h
            · rename_i ax ay pc hdp
              split at h
              · rename_i h0
                obtain ⟨this, hpl⟩ := fin rfl hst rfl h
                exact ⟨by rw [hpl]; exact p1, ax, ay, pc, hdp, Or.inl ⟨h0, by rw [this]⟩⟩
              · rename_i h0
                split at h
                · cases h
                · rename_i b1 hm
                  split at h
                  · cases h
                  · rename_i b2 hb
                    obtain ⟨this, hpl⟩ := fin (t := { s with bank := b2 }) (q := { r with accepted := [⟨pair.quote, ax⟩, ⟨pair.base, ay⟩], minted := pc }) rfl hst rfl h
                    have hne := (hw.pairNe pair r1).1
                    have h1 : ¬ pair.quote = pair.base := fun e => hne e.symm
                    refine ⟨by rw [hpl]; exact p1, ax, ay, pc, hdp, Or.inr ⟨h0, by rw [this], by rw [this], ?_, ?_⟩⟩
                    · rw [this]; simp [amountOf, hne]
                    · rw [this]; simp [amountOf, h1]

theorem executeWithdraw_priced (hw : WF s) {env : Env} {r r' : WdReq} (hr : r ∈ s.withdraws) (hst : r.status = .notExecuted)
    (h : executeWithdraw env r s = some s') (hr' : r' ∈ s'.withdraws) (hk : r'.key = r.key) : WithdrawPriced env r r' s s' := by
  have fin : ∀ {q : WdReq} {st : ReqStatus} {t : State}, q.key = r.key → q.status = .notExecuted → t.withdraws = s.withdraws →
      finishWithdraw q st t = some s' → r' = { q with status := st } ∧ s'.pools = t.pools := by
    intro q st t hq hqs ht hf
    obtain ⟨b, e, _⟩ := finishWithdraw_spec hqs hf
    rw [e] at hr'
    exact ⟨withdraw_outcome_unique hw (q := { q with status := st }) hr hq hk (t := { t with bank := b }) ht hr', by rw [e]; rfl⟩
  unfold executeWithdraw at h
  split at h
  · cases h
  · rename_i pool hp
    obtain ⟨p1, p2⟩ := hw.getPool_iff.1 hp
    obtain ⟨q, q1, q2⟩ := (hw.poolIds pool p1).2.2
    split at h
    · rename_i hdis
      obtain ⟨this, hpl⟩ := fin rfl hst rfl h
      exact ⟨pool, p1, q, q1, p2, q2, Or.inl ⟨hdis, by rw [this], by rw [hpl]; exact p1⟩⟩
    · rename_i hdis
      split at h
      · cases h
      · rename_i pair hpair
        obtain ⟨r1, r2⟩ := hw.getPair_iff.1 hpair
        simp only at h
        refine ⟨pool, p1, pair, r1, p2, r2, ?_⟩
        simp only
        split at h
        · cases h
        · rename_i ap hap
          have hdep := ammPool_depleted hap
          split at h
          · rename_i hd
            obtain ⟨this, hpl⟩ := fin (t := s.markDisabled pool) rfl hst rfl h
            exact Or.inr (Or.inl ⟨by simpa using hdis, hdep.1 hd, by rw [this], by rw [hpl]; exact (hw.mem_setPool p1 (p' := { pool with disabled := true }) rfl).2 (Or.inl rfl)⟩)
          · rename_i hd
            refine Or.inr (Or.inr ⟨by simpa using hdis, fun e => hd (hdep.2 e), ?_⟩)
            split at h
            · cases h
            · rename_i x y hwd
              refine ⟨x, y, hwd, ?_⟩
              split at h
              · rename_i h0
                obtain ⟨this, hpl⟩ := fin rfl hst rfl h
                exact Or.inl ⟨h0.1, h0.2, by rw [this], by rw [hpl]; exact p1⟩
              · rename_i h0
                split at h
                · cases h
                · rename_i b1 hb
                  split at h
                  · cases h
                  · rename_i b2 hb2
                    obtain ⟨this, hpl⟩ := fin (t := if r.coin.amt = s.poolSupply pool then { s with bank := b2 }.markDisabled pool else { s with bank := b2 })
                      (q := { r with withdrawn := [⟨pair.quote, x⟩, ⟨pair.base, y⟩] }) rfl hst (by split <;> rfl) h
                    have hne := (hw.pairNe pair r1).1
                    have h1 : ¬ pair.quote = pair.base := fun e => hne e.symm
                    refine Or.inr ⟨h0, by rw [this], ?_, ?_, ?_⟩
                    · rw [this]; simp [amountOf, hne]
                    · rw [this]; simp [amountOf, h1]
                    · rw [hpl]
                      by_cases hall : r.coin.amt = s.bank.supply (.pool pool.id)
                      · rw [if_pos (show r.coin.amt = s.poolSupply pool from hall), decide_eq_true hall]
                        exact (hw.mem_setPool p1 (p' := { pool with disabled := true }) rfl).2 (Or.inl rfl)
                      · rw [if_neg (show ¬ r.coin.amt = s.poolSupply pool from hall), decide_eq_false hall]
                        have : pool.disabled = false := by simpa using hdis
                        rw [← this]; exact p1

theorem deposit_turns (hw : WF s) (hc : Clean s) {env : Env} (h : forEach (depositPass env) s.deposits s = some s') :
    InTurn (DepositTurn env) s.deposits s s' := by
  refine (forEach_turns (fun xs t => Depositing s xs t ∧ Clean t) ?_ _ _ _ ?_ h).1
  · rintro x xs t t' ⟨h1, h2⟩ e
    have hd := deposit_step h1 e
    have hx := h1.pending x (by simp)
    unfold depositPass at e
    split at e
    · rename_i hst
      obtain ⟨r', he⟩ := executeDeposit_executed h1.wf h2 hx hst e
      have hst' : r'.status ≠ .notExecuted := by
        rcases he.outcome.2 with h | h
        · rw [h.1]; simp
        · rw [h.1]; simp
      have hkey : r'.key = x.key := by rw [he.outcome.1]; rfl
      have hmem := (he.deposits r').2 (Or.inl rfl)
      refine ⟨⟨hd, ?_, ?_⟩, Or.inl ⟨hst, r', he, executeDeposit_priced h1.wf hx hst e hmem hkey⟩⟩
      · intro r hr hs
        rcases (he.deposits r).1 hr with rfl | ⟨h, _⟩
        · exact absurd hs hst'
        · exact h2.1 r h hs
      · rw [he.rest.2.2.2.2.1]; exact h2.2
    · rename_i hst
      have e := Option.some.inj e
      subst e
      exact ⟨⟨hd, h2⟩, Or.inr ⟨hst, rfl⟩⟩
  · exact ⟨⟨hw, Relation.ReflTransGen.refl, hw.depsS.nodup, fun x hx => hx, rfl, rfl, PassFrame.refl s, fun r hr => Or.inl hr⟩, hc⟩

theorem withdraw_turns (hw : WF s) (hc : Clean s) {env : Env} (h : forEach (withdrawPass env) s.withdraws s = some s') :
    InTurn (WithdrawTurn env) s.withdraws s s' := by
  refine (forEach_turns (fun xs t => Withdrawing s xs t ∧ Clean t) ?_ _ _ _ ?_ h).1
  · rintro x xs t t' ⟨h1, h2⟩ e
    have hd := withdraw_step h1 e
    have hx := h1.pending x (by simp)
    unfold withdrawPass at e
    split at e
    · rename_i hst
      obtain ⟨r', he⟩ := executeWithdraw_executed h1.wf h2 hx hst e
      have hst' : r'.status ≠ .notExecuted := by
        rcases he.outcome.2 with h | h
        · rw [h.1]; simp
        · rw [h.1]; simp
      have hkey : r'.key = x.key := by rw [he.outcome.1]; rfl
      have hmem := (he.withdraws r').2 (Or.inl rfl)
      refine ⟨⟨hd, ?_, ?_⟩, Or.inl ⟨hst, r', he, executeWithdraw_priced h1.wf hx hst e hmem hkey⟩⟩
      · rw [he.rest.2.2.2.2.1]; exact h2.1
      · intro r hr hs
        rcases (he.withdraws r).1 hr with rfl | ⟨h, _⟩
        · exact absurd hs hst'
        · exact h2.2 r h hs
    · rename_i hst
      have e := Option.some.inj e
      subst e
      exact ⟨⟨hd, h2⟩, Or.inr ⟨hst, rfl⟩⟩
  · exact ⟨⟨hw, Relation.ReflTransGen.refl, hw.wdsS.nodup, fun x hx => hx, rfl, rfl, PassFrame.refl s, fun r hr => Or.inl hr⟩, hc⟩

theorem batch_turns (hw : WF s) (hc : Clean s) {env : Env} (h : executeRequests env s = some s') :
    ∃ s2 s3, s2.deposits = s.deposits ∧ s2.withdraws = s.withdraws ∧ InTurn (DepositTurn env) s.deposits s2 s3 ∧
      InTurn (WithdrawTurn env) s.withdraws s3 s' := by
  unfold executeRequests at h
  split at h
  · cases h
  · rename_i s1 h1
    have m1 := matching_all hw h1
    split at h
    · cases h
    · rename_i s2 h2
      have m2 := expire_all m1.wf h2
      have d1 : s2.deposits = s.deposits := m2.frame.deposits.trans m1.deposits
      have d2 : s2.withdraws = s.withdraws := m2.frame.withdraws.trans m1.withdraws
      have hc2 : Clean s2 := by unfold Clean; rw [d1, d2]; exact hc
      split at h
      · cases h
      · rename_i s3 h3
        have m3 := deposit_all m2.wf h3
        have hc3 := (deposit_pass_spec m2.wf hc2 h3).1
        refine ⟨s2, s3, d1, d2, ?_, ?_⟩
        · rw [← d1]; exact deposit_turns m2.wf hc2 h3
        · rw [← d2, ← m3.withdraws]; exact withdraw_turns m3.wf hc3 h

/-- Disabling pools of one pair leaves the other pools alone. -/
theorem collectPool_others (hw : WF s) {env : Env} {pair : Pair} {st : State × List (Nat × Pool)}
    (h : forEach (collectPool env pair) (s.poolsOf pair.id) (s, []) = some st) {q : PoolRec} (hq : q.pairId ≠ pair.id) :
    q ∈ st.1.pools ↔ q ∈ s.pools := by
  refine (forEach_inv (f := collectPool env pair) (fun xs t => CollectingPools env pair s xs t ∧ (q ∈ t.1.pools ↔ q ∈ s.pools)) ?_ _ _ _ ?_ h).2
  · rintro x xs ⟨t, ps⟩ st' ⟨h1, h2⟩ e
    refine ⟨collectPool_step h1 e, ?_⟩
    obtain ⟨x1, x2⟩ := h1.pending x (by simp)
    unfold collectPool at e
    split at e
    · have e := Option.some.inj e
      subst e; exact h2
    · split at e
      · cases e
      · split at e
        · have e := Option.some.inj e
          subst e
          simp only at h2 ⊢
          rw [← h2]
          have hm := h1.wf.mem_setPool x1 (p' := { x with disabled := true }) (by rfl) (x := q)
          refine hm.trans ?_
          constructor
          · rintro (rfl | h3)
            · exact absurd x2 hq
            · exact h3.1
          · intro h3
            exact Or.inr ⟨h3, fun e => hq (e ▸ x2)⟩
        · have e := Option.some.inj e
          subst e; exact h2
  · refine ⟨⟨hw, Relation.ReflTransGen.refl, hw.poolsS.nodup.filter _, ?_, rfl, rfl, rfl, rfl, rfl, rfl, rfl, rfl, rfl, rfl, rfl, rfl, by simp, ?_, by simp, by simp⟩, Iff.rfl⟩
    · intro x hx
      simpa [State.poolsOf] using hx
    · intro x hx
      exact (List.mem_filter.1 hx).1

theorem finishOrder_pools {o : OrderRec} {status : OStatus} (h : finishOrder o status s = some s') : s'.pools = s.pools := by
  cases hd : o.done with
  | true => rw [finishOrder_done hd h]
  | false => exact (finishOrder_same hd h).pools

theorem applyMatchResult_pools {pair : Pair} {os : List Order} {diff : Int} (h : applyMatchResult pair os diff s = some s') :
    s'.pools = s.pools := by
  unfold applyMatchResult at h
  split at h
  · cases h
  · split at h
    · cases h
    · rename_i st hst
      split at h
      · cases h
      · have h := Option.some.inj h
        subst h
        refine forEach_inv (f := applyOrder pair) (fun _ t => t.s.pools = s.pools) ?_ _ _ _ ?_ hst
        · intro x xs t t' ht e
          unfold applyOrder at e
          split at e
          · have e := Option.some.inj e
            subst e; exact ht
          · simp only at e
            split at e
            · split at e
              · cases e
              · split at e
                · cases e
                · split at e
                  · cases e
                  · rename_i t1 h1
                    have e := Option.some.inj e
                    subst e
                    simp only
                    rw [← ht]
                    split at h1
                    · exact finishOrder_pools h1
                    · have h1 := Option.some.inj h1
                      subst h1; rfl
            · split at e
              · have e := Option.some.inj e
                subst e; exact ht
              · split at e
                · cases e
                · have e := Option.some.inj e
                  subst e; exact ht
        · rfl

theorem executeMatching_pools_others (hw : WF s) {env : Env} {pair : Pair} (h : executeMatching env pair s = some s')
    {q : PoolRec} (hq : q.pairId ≠ pair.id) : q ∈ s'.pools ↔ q ∈ s.pools := by
  unfold executeMatching at h
  split at h
  · cases h
  · rename_i s1 os hc
    have hC := collect_all hw pair.id hc
    split at h
    · cases h
    · rename_i s2 pools hpl
      have hP := collectPool_others hC.wf hpl hq
      rw [hC.frame.pools] at hP
      split at h
      · cases h
      · have h := Option.some.inj h
        subst h; exact hP
      · split at h
        · cases h
        · rename_i s3 h3
          simp only at h
          have h := Option.some.inj h
          subst h
          rw [← hP]
          show q ∈ s3.pools ↔ _
          rw [applyMatchResult_pools h3]

theorem ledger_reserve (s : State) (id : Nat) (d : Denom) : ledger s (.poolReserve id) d =
    s.bank.bal (.poolReserve id) d + total (depositPart (.poolReserve id) d) s.deposits + total (withdrawPart (.poolReserve id) d) s.withdraws := by
  unfold ledger
  rw [total_zero (f := orderPart (.poolReserve id) d) (fun o _ => by simp [orderPart])]
  ring

/-- The matching of one pair leaves the reserves of other pairs' pools alone, unless one of them collects the dust. -/
theorem executeMatching_reserve_others (hw : WF s) {env : Env} {pair : Pair} (hp : pair ∈ s.pairs) (h : executeMatching env pair s = some s')
    {q : PoolRec} (hqp : q ∈ s.pools) (hq : q.pairId ≠ pair.id) (hdust : s.params.dustCollector ≠ .poolReserve q.id) (d : Denom) :
    s'.bank.bal (.poolReserve q.id) d = s.bank.bal (.poolReserve q.id) d := by
  have hm := executeMatching_spec hw hp h
  have hl : ledger s' (.poolReserve q.id) d = ledger s (.poolReserve q.id) d := by
    obtain ⟨pools, h1, _, _, hc⟩ := (executeMatching_flow hw hp h).cases
    rcases hc with ⟨_, h2, _⟩ | ⟨out, hout, h2, _⟩
    · exact h2 _ _
    · rw [h2, total_zero]
      · have : transferEffect ⟨.pairEscrow pair.id, s.params.dustCollector, [⟨pair.quote, out.diff⟩]⟩ (.poolReserve q.id) d = 0 := by
          unfold transferEffect
          rw [if_neg (fun e => hdust e.symm), if_neg (by simp)]; ring
        omega
      · intro y hy
        split
        · unfold flow
          rw [if_neg (by simp)]
          cases hk : y.kind with
          | user a b => simp
          | pool id =>
            simp only
            rw [if_neg]
            · simp
            intro e
            simp only [Addr.poolReserve.injEq] at e
            subst e
            obtain ⟨pos, h', k1, k2, k3⟩ := keeperMatch_ids hout
            rw [k3] at hy
            obtain ⟨i, hi, rfl⟩ := List.mem_map.1 hy
            obtain ⟨_, b2, _⟩ := book_orders_nodup (heapOf ((bookOrders s pair.id).map newUserOrder ++ pos))
              (List.nodup_range (n := ((bookOrders s pair.id).map newUserOrder ++ pos).length))
            have hlt := List.mem_range.1 (b2 i hi)
            rw [(k2 i).1] at hk
            by_cases hlen : i < ((bookOrders s pair.id).map newUserOrder).length
            · rw [heapOf_left hlen, List.getElem_map] at hk
              cases hk
            · obtain ⟨id, k4, k5⟩ := k1 _ (heapOf_right (by omega) hlt)
              rw [hk] at k5
              simp only [OKind.pool.injEq] at k5
              subst k5
              obtain ⟨e, he, e2⟩ := List.mem_map.1 k4
              obtain ⟨pool, p1, p2, _, p4, _⟩ := h1 e he
              have : q = pool := hw.key_pool hqp p1 (by rw [← p4, e2])
              exact hq (this ▸ p2)
        · rfl
  rw [ledger_reserve, ledger_reserve, hm.deposits, hm.withdraws] at hl
  omega

/-- The matching of each pair starts from its orders and pools as they were before the batch. -/
theorem batch_matches (hw : WF s) {env : Env} (h : executeRequests env s = some s') {p : Pair} (hp : p ∈ s.pairs) :
    ∃ t t', WF t ∧ p ∈ t.pairs ∧ executeMatching env p t = some t' ∧ t.params = s.params ∧ t.time = s.time ∧
      (∀ o, o.pairId = p.id → (o ∈ t.orders ↔ o ∈ s.orders)) ∧ (∀ q, q.pairId = p.id → (q ∈ t.pools ↔ q ∈ s.pools)) ∧
      t.bank.supply = s.bank.supply ∧
      (∀ q ∈ s.pools, q.pairId = p.id → s.params.dustCollector ≠ .poolReserve q.id → ∀ d,
        t.bank.bal (.poolReserve q.id) d = s.bank.bal (.poolReserve q.id) d) := by
  unfold executeRequests at h
  split at h
  · cases h
  · rename_i s1 h1
    have key : ∀ (xs : List Pair) (t : State), Matching s xs t → (∀ q, q.pairId = p.id → (q ∈ t.pools ↔ q ∈ s.pools)) →
        t.bank.supply = s.bank.supply → (∀ q ∈ s.pools, q.pairId = p.id → s.params.dustCollector ≠ .poolReserve q.id → ∀ d,
        t.bank.bal (.poolReserve q.id) d = s.bank.bal (.poolReserve q.id) d) → forEach (executeMatching env) xs t = some s1 → p ∈ xs →
        ∃ t t', WF t ∧ p ∈ t.pairs ∧ executeMatching env p t = some t' ∧ t.params = s.params ∧ t.time = s.time ∧
          (∀ o, o.pairId = p.id → (o ∈ t.orders ↔ o ∈ s.orders)) ∧ (∀ q, q.pairId = p.id → (q ∈ t.pools ↔ q ∈ s.pools)) ∧
          t.bank.supply = s.bank.supply ∧
          (∀ q ∈ s.pools, q.pairId = p.id → s.params.dustCollector ≠ .poolReserve q.id → ∀ d,
            t.bank.bal (.poolReserve q.id) d = s.bank.bal (.poolReserve q.id) d) := by
      intro xs
      induction xs with
      | nil => intro t _ _ _ _ _ hc; cases hc
      | cons x xs ih =>
        intro t ht hpl hsup hres e hx
        simp only [forEach, Option.bind_eq_some_iff] at e
        obtain ⟨t', e1, e2⟩ := e
        by_cases hxp : x = p
        · subst hxp
          exact ⟨t, t', ht.wf, (ht.pending x (by simp)).1, e1, ht.params, ht.time, fun o ho => ht.same o ⟨x, by simp, ho.symm⟩,
            hpl, hsup, hres⟩
        · have hx : p ∈ xs := by
            rcases List.mem_cons.1 hx with h | h
            · exact absurd h.symm hxp
            · exact h
          have hne : p.id ≠ x.id := fun e => hxp (ht.inj x (ht.pending x (by simp)).2 p hp e.symm)
          refine ih t' (matching_step ht e1) ?_ ?_ ?_ e2 hx
          · intro q hq
            rw [executeMatching_pools_others ht.wf e1 (by rw [hq]; exact hne), hpl q hq]
          · rw [rel_executeMatching supply_rel e1, hsup]
          · intro q hqs hq hd d
            rw [executeMatching_reserve_others ht.wf (ht.pending x (by simp)).1 e1 ((hpl q hq).2 hqs) (by rw [hq]; exact hne)
              (by rw [ht.params]; exact hd), hres q hqs hq hd]
    exact key _ _ (matching_init hw) (fun _ _ => Iff.rfl) rfl (fun _ _ _ _ _ => rfl) h1 hp

end Verif.Dex

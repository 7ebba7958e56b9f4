import Verif.Proofs.Effects
import Verif.Spec.Request
/-! # What a batch does to requests, supplies and orders -/
namespace Verif.Dex
open Verif Verif.Amm Verif.Spec

variable {s s' : State}

/-- Pending requests have no outcome. -/
def Clean (s : State) : Prop :=
  (∀ r ∈ s.deposits, r.status = .notExecuted → r.minted = 0) ∧ (∀ r ∈ s.withdraws, r.status = .notExecuted → r.withdrawn = [])

theorem clean_step (hw : WF s) {env : Env} {op : Op} (hc : Clean s) (h : step env op s = some s') : Clean s' := by
  by_cases h1 : ∃ a b, op = .beginBlock a b
  · obtain ⟨a, b, rfl⟩ := h1
    cases h
    exact ⟨fun r hr => hc.1 r (List.mem_filter.1 hr).1, fun r hr => hc.2 r (List.mem_filter.1 hr).1⟩
  by_cases h2 : op = .endBlock
  · subst h2
    change endBlock env s = some s' at h
    unfold endBlock at h
    split at h
    · cases h
    · split at h
      · have := executeRequests_spec hw h
        exact ⟨fun r hr e => absurd e (this.deposits r hr), fun r hr e => absurd e (this.withdraws r hr)⟩
      · cases h; exact hc
  push Not at h1
  have he := step_effect hw h1 h2 h
  constructor
  · by_cases hd : ∃ m, op = .deposit m
    · obtain ⟨m, rfl⟩ := hd
      cases he with
      | same _ e => rw [e]; exact hc.1
      | deposit m p r e =>
        intro x hx hst
        rcases (e.deposits x).1 hx with hx | rfl
        · exact hc.1 x hx hst
        · rw [e.request]
      | order _ hop p o e _ => rcases hop with ⟨_, e⟩ | ⟨_, e⟩ | ⟨_, e⟩ <;> cases e
      | cancel _ hop hf hs ho hl => rcases hop with ⟨_, e⟩ | ⟨_, e⟩ <;> cases e
    · push Not at hd
      rw [effect_deposits he hd]; exact hc.1
  · by_cases hd : ∃ m, op = .withdraw m
    · obtain ⟨m, rfl⟩ := hd
      cases he with
      | same _ e => rw [e]; exact hc.2
      | withdraw m p r e =>
        intro x hx hst
        rcases (e.withdraws x).1 hx with hx | rfl
        · exact hc.2 x hx hst
        · rw [e.request]
      | order _ hop p o e _ => rcases hop with ⟨_, e⟩ | ⟨_, e⟩ | ⟨_, e⟩ <;> cases e
      | cancel _ hop hf hs ho hl => rcases hop with ⟨_, e⟩ | ⟨_, e⟩ <;> cases e
    · push Not at hd
      rw [effect_withdraws he hd]; exact hc.2

theorem clean_run {env : Env} : ∀ {ops : List Op} {s s' : State}, WF s → Clean s → run env ops s = some s' → Clean s' := by
  intro ops
  induction ops with
  | nil => intro s s' _ hc h; cases h; exact hc
  | cons op ops ih =>
    intro s s' hw hc h
    simp only [run, Option.bind_eq_some_iff] at h
    obtain ⟨t, h1, h2⟩ := h
    exact ih (step_wf hw h1) (clean_step hw hc h1) h2

theorem _root_.Verif.Spec.Reachable.clean {env : Env} (h : Reachable env s) : Clean s := by
  obtain ⟨s0, ops, h0, h1⟩ := h
  refine clean_run (genesis_wf h0) ?_ h1
  constructor
  · rw [h0.deposits]; simp
  · rw [h0.withdraws]; simp

theorem markDisabled_pools (hw : WF s) {pool : PoolRec} (hp : pool ∈ s.pools) :
    (∀ x, x.id ≠ pool.id → (x ∈ (s.markDisabled pool).pools ↔ x ∈ s.pools)) ∧
    (∀ x ∈ (s.markDisabled pool).pools, x.id = pool.id → x = { pool with disabled := true }) := by
  have hm : ∀ x, x ∈ (s.markDisabled pool).pools ↔ x = { pool with disabled := true } ∨ (x ∈ s.pools ∧ x ≠ pool) :=
    fun x => hw.mem_setPool hp (by rfl)
  constructor
  · intro x hx
    rw [hm]
    constructor
    · rintro (rfl | h)
      · exact absurd rfl hx
      · exact h.1
    · intro h
      exact Or.inr ⟨h, by rintro rfl; exact hx rfl⟩
  · intro x hx e
    rcases (hm x).1 hx with h | ⟨h1, h2⟩
    · exact h
    · exact absurd (hw.key_pool h1 hp e) h2

theorem executeDeposit_executed (hw : WF s) (hc : Clean s) {env : Env} {r : DepReq} (hr : r ∈ s.deposits) (hst : r.status = .notExecuted)
    (h : executeDeposit env r s = some s') : ∃ r', DepositExecuted r r' s s' := by
  obtain ⟨pool, pair, p1, p2, q1, q2, hcase⟩ := executeDeposit_spec hw hr hst h
  have hmin := hc.1 r hr hst
  have hacc := (hw.deps r hr).2.2.2.2 hst
  rcases hcase with ⟨t, b, ht, rfl, hb, hbal⟩ | ⟨hdis, ax, ay, pc, b1, b, hpos, hdep, x1, x2, y1, y2, rfl, hm, hb, hbal⟩
  · refine ⟨{ r with status := .failed }, ⟨rfl, Or.inl ⟨rfl, hacc, hmin⟩⟩, ?_, ?_, ?_, ?_, ?_, ?_⟩
    · intro x
      have := hw.mem_setDeposit (p' := { r with status := .failed }) (x := x) hr (by rfl)
      rcases ht with rfl | rfl <;> exact this
    · intro a d
      show b.bal a d = _
      rw [hbal]
      unfold transferEffect
      simp only [hacc, hmin, amountOf_nil]
      by_cases e2 : a = .user r.depositor <;> by_cases e3 : a = .globalEscrow <;> simp [e2, e3] <;> ring
    · intro d
      show b.supply d = _
      rw [hb.supply]; simp [hmin]
    · intro x hx
      rcases ht with rfl | rfl
      · exact Iff.rfl
      · exact (markDisabled_pools hw p1).1 x (by rw [p2]; exact hx)
    · intro x hx e
      rcases ht with rfl | rfl
      · exact ⟨x, hx, Or.inl rfl⟩
      · exact ⟨pool, p1, Or.inr ⟨(markDisabled_pools hw p1).2 x hx (by rw [p2]; exact e), rfl⟩⟩
    · rcases ht with rfl | rfl <;> exact ⟨rfl, rfl, rfl, rfl, rfl, rfl, rfl, rfl, rfl⟩
  · have hnd := (hw.deps r hr).2.2.2.1
    have hne := (hw.pairNe pair q1).1
    have hacc0 : ∀ c ∈ ([⟨pair.quote, ax⟩, ⟨pair.base, ay⟩] : Coins), 0 ≤ c.amt := by
      intro c hc
      simp only [List.mem_cons, List.not_mem_nil, or_false] at hc
      rcases hc with rfl | rfl
      · exact x1
      · exact y1
    have href := refund_total (coins := r.coins) (accepted := [⟨pair.quote, ax⟩, ⟨pair.base, ay⟩]) hnd hacc0 (by
        intro c hc
        simp only [List.mem_cons, List.not_mem_nil, or_false] at hc
        rcases hc with rfl | rfl
        · simp only [amountOf_cons, amountOf_nil, if_true, if_neg hne]; omega
        · simp only [amountOf_cons, amountOf_nil, if_true, if_neg (show ¬ pair.quote = pair.base from fun e => hne e.symm)]; omega)
    refine ⟨{ r with accepted := [⟨pair.quote, ax⟩, ⟨pair.base, ay⟩], minted := pc, status := .succeeded },
      ⟨rfl, Or.inr ⟨rfl, hpos, fun d => ⟨amountOf_nonneg hacc0 d, ?_⟩⟩⟩, ?_, ?_, ?_, fun x _ => Iff.rfl, fun x hx _ => ⟨x, hx, Or.inl rfl⟩,
      ⟨rfl, rfl, rfl, rfl, rfl, rfl, rfl, rfl, rfl⟩⟩
    · simp only
      rw [amountOf_cons, amountOf_cons, amountOf_nil]
      by_cases e1 : pair.quote = d
      · subst e1
        simp only [if_true, if_neg hne]
        omega
      · by_cases e2 : pair.base = d
        · subst e2
          simp only [if_true, if_neg e1]
          omega
        · simp only [if_neg e1, if_neg e2]
          have := amountOf_nonneg (cs := r.coins) (fun c hc => le_of_lt ((hw.deps r hr).2.2.1 c hc)) d
          omega
    · intro x
      exact hw.mem_setDeposit hr (by rfl)
    · intro a d
      show b.bal a d = _
      rw [hbal, (mint_some hm).2.1]
      have hd := href d
      rw [p2]
      unfold transferEffect
      simp only [amountOf_single]
      rw [← hd]
      generalize amountOf [⟨pair.quote, ax⟩, ⟨pair.base, ay⟩] d = A
      generalize amountOf (coinsSub r.coins [⟨pair.quote, ax⟩, ⟨pair.base, ay⟩]) d = B
      clear href hd h hbal hb hm hdep
      by_cases e2 : a = .user r.depositor <;> by_cases e3 : a = .globalEscrow <;> by_cases e4 : a = .poolReserve r.poolId <;>
        by_cases e5 : a = .dexModule <;> by_cases e6 : d = .pool r.poolId <;> simp_all [eq_comm (a := d)] <;> omega
    · intro d
      show b.supply d = _
      rw [hb.supply, (mint_some hm).2.2, p2]

theorem executeWithdraw_executed (hw : WF s) (hc : Clean s) {env : Env} {r : WdReq} (hr : r ∈ s.withdraws) (hst : r.status = .notExecuted)
    (h : executeWithdraw env r s = some s') : ∃ r', WithdrawExecuted r r' s s' := by
  obtain ⟨pool, pair, p1, p2, q1, q2, hcase⟩ := executeWithdraw_spec hw hr hst h
  have hmin := hc.2 r hr hst
  have hden := (hw.wds r hr).2.2.2
  rcases hcase with ⟨t, b, ht, rfl, hb, hbal⟩ | ⟨hdis, x, y, b1, b2, hxy, hwd, hx, hy, hb, hbal, hburn, rfl⟩
  · refine ⟨{ r with status := .failed }, ⟨rfl, Or.inl ⟨rfl, hmin⟩⟩, ?_, ?_, ?_, ?_, ?_, ?_⟩
    · intro x
      have := hw.mem_setWithdraw (p' := { r with status := .failed }) (x := x) hr (by rfl)
      rcases ht with rfl | rfl <;> exact this
    · intro a d
      show b.bal a d = _
      rw [hbal]
      unfold transferEffect
      rcases hcn : r.coin with ⟨cd, ca⟩
      rw [hcn] at hden
      simp only at hden
      subst hden
      simp only [hmin, amountOf_nil, amountOf_single]
      by_cases e2 : a = .user r.withdrawer <;> by_cases e3 : a = .globalEscrow <;> by_cases e4 : d = .pool r.poolId <;> simp [e2, e3, e4, eq_comm (a := Denom.pool r.poolId)] <;> ring
    · intro d
      show b.supply d = _
      rw [hb.supply]; simp
    · intro x hx
      rcases ht with rfl | rfl
      · exact Iff.rfl
      · exact (markDisabled_pools hw p1).1 x (by rw [p2]; exact hx)
    · intro x hx e
      rcases ht with rfl | rfl
      · exact ⟨x, hx, Or.inl rfl⟩
      · exact ⟨pool, p1, Or.inr ⟨(markDisabled_pools hw p1).2 x hx (by rw [p2]; exact e), Or.inl rfl⟩⟩
    · rcases ht with rfl | rfl <;> exact ⟨rfl, rfl, rfl, rfl, rfl, rfl, rfl, rfl, rfl⟩
  · have hne := (hw.pairNe pair q1).1
    generalize hst2 : (if r.coin.amt = s.bank.supply (.pool pool.id) then { s with bank := b2 }.markDisabled pool else { s with bank := b2 }) = st
    have hcs : (st = { s with bank := b2 }.markDisabled pool ∧ r.coin.amt = s.bank.supply (.pool pool.id)) ∨ st = { s with bank := b2 } := by
      rw [← hst2]; split
      · rename_i e; exact Or.inl ⟨rfl, e⟩
      · exact Or.inr rfl
    have e1 : st.orders = s.orders ∧ st.deposits = s.deposits ∧ st.withdraws = s.withdraws ∧ st.bank = b2 := by
      rcases hcs with ⟨rfl, _⟩ | rfl <;> exact ⟨rfl, rfl, rfl, rfl⟩
    have hw0 : ∀ c ∈ ([⟨pair.quote, x⟩, ⟨pair.base, y⟩] : Coins), 0 ≤ c.amt := by
      intro c hc
      simp only [List.mem_cons, List.not_mem_nil, or_false] at hc
      rcases hc with rfl | rfl
      · exact hx
      · exact hy
    refine ⟨{ r with withdrawn := [⟨pair.quote, x⟩, ⟨pair.base, y⟩], status := .succeeded },
      ⟨rfl, Or.inr ⟨rfl, fun d => amountOf_nonneg hw0 d, ?_⟩⟩, ?_, ?_, ?_, ?_, ?_, ?_⟩
    · by_cases e : x = 0
      · refine ⟨pair.base, ?_⟩
        simp only [amountOf_cons, amountOf_nil, if_true, if_neg (show ¬ pair.quote = pair.base from fun e => hne e.symm)]
        omega
      · refine ⟨pair.quote, ?_⟩
        simp only [amountOf_cons, amountOf_nil, if_true, if_neg hne]
        omega
    · intro z
      have := hw.mem_setWithdraw (p' := { r with withdrawn := [⟨pair.quote, x⟩, ⟨pair.base, y⟩], status := .succeeded }) (x := z) hr (by rfl)
      show z ∈ upsert WdReq.key _ st.withdraws ↔ _
      rw [e1.2.2.1]
      exact this
    · intro a d
      show st.bank.bal a d = _
      rw [e1.2.2.2, (burn_some hburn).2.2.1, hbal, p2]
      unfold transferEffect
      rcases hcn : r.coin with ⟨cd, ca⟩
      rw [hcn] at hden
      simp only at hden
      subst hden
      simp only [amountOf_single]
      generalize amountOf [⟨pair.quote, x⟩, ⟨pair.base, y⟩] d = A
      clear h hbal hb hburn hwd e1 hcs hst2
      by_cases e2 : a = .user r.withdrawer <;> by_cases e3 : a = .globalEscrow <;> by_cases e4 : a = .poolReserve r.poolId <;>
        by_cases e5 : a = .dexModule <;> by_cases e6 : d = .pool r.poolId <;> simp_all [eq_comm (a := d)] <;> omega
    · intro d
      show st.bank.supply d = _
      rw [e1.2.2.2, (burn_some hburn).2.2.2, hb.supply, p2]
      by_cases e6 : d = .pool r.poolId <;> simp [e6]
    · intro z hz
      rcases hcs with ⟨rfl, _⟩ | rfl
      · exact (markDisabled_pools (s := s) hw p1).1 z (by rw [p2]; exact hz)
      · exact Iff.rfl
    · intro z hz e
      rcases hcs with ⟨rfl, ha⟩ | rfl
      · exact ⟨pool, p1, Or.inr ⟨(markDisabled_pools (s := s) hw p1).2 z hz (by rw [p2]; exact e), Or.inr (by rw [ha, p2])⟩⟩
      · exact ⟨z, hz, Or.inl rfl⟩
    · rcases hcs with ⟨rfl, _⟩ | rfl <;> exact ⟨rfl, rfl, rfl, rfl, rfl, rfl, rfl, rfl, rfl⟩

theorem total_replace {α : Type} [DecidableEq α] (f : α → Int) {l l' : List α} {r r' : α} (h : l.Nodup) (h' : l'.Nodup) (hr : r ∈ l)
    (hx : r' ∉ l ∨ r' = r) (hm : ∀ y, y ∈ l' ↔ y = r' ∨ (y ∈ l ∧ y ≠ r)) : total f l' = total f l + f r' - f r := by
  have hp : l'.Perm (r' :: l.erase r) := by
    rw [List.perm_ext_iff_of_nodup h' (List.nodup_cons.2 ⟨?_, h.erase r⟩)]
    · intro y
      rw [hm, List.mem_cons, h.mem_erase_iff, and_comm]
    · rw [h.mem_erase_iff]
      rcases hx with hx | hx
      · exact fun e => hx e.2
      · exact fun e => e.1 hx
  rw [total_perm f hp]
  have := total_perm f (List.perm_cons_erase hr)
  unfold total at *
  rw [this]
  simp only [List.map_cons, List.sum_cons]
  ring

/-- What the deposit pass does. -/
theorem deposit_pass_spec (hw : WF s) (hc : Clean s) {env : Env} (h : forEach (depositPass env) s.deposits s = some s') :
    Clean s' ∧ (∀ r' ∈ s'.deposits, (r' ∈ s.deposits ∧ r'.status ≠ .notExecuted) ∨ ∃ r ∈ s.deposits, r.status = .notExecuted ∧ DepositOutcome r r') ∧
    (∀ id, s'.bank.supply (.pool id) - mintedByRequests s' id = s.bank.supply (.pool id) - mintedByRequests s id) ∧
    (∀ n, s'.bank.supply (.native n) = s.bank.supply (.native n)) := by
  have := forEach_inv (f := depositPass env) (fun xs t => Depositing s xs t ∧ (∀ x ∈ xs, x ∈ s.deposits) ∧ Clean t ∧
    (∀ r' ∈ t.deposits, r' ∈ xs ∨ (r' ∈ s.deposits ∧ r'.status ≠ .notExecuted) ∨ ∃ r ∈ s.deposits, r.status = .notExecuted ∧ DepositOutcome r r') ∧
    (∀ id, t.bank.supply (.pool id) - mintedByRequests t id = s.bank.supply (.pool id) - mintedByRequests s id) ∧
    (∀ n, t.bank.supply (.native n) = s.bank.supply (.native n))) ?_ _ _ _ ?_ h
  · refine ⟨this.2.2.1, fun r' hr' => ?_, this.2.2.2.2.1, this.2.2.2.2.2⟩
    rcases this.2.2.2.1 r' hr' with h1 | h1
    · cases h1
    · exact h1
  · rintro x xs t t' ⟨h1, h0, h2, h3, h4, h5⟩ e
    have hd := deposit_step h1 e
    refine ⟨hd, fun y hy => h0 y (by simp [hy]), ?_⟩
    have hx := h1.pending x (by simp)
    unfold depositPass at e
    split at e
    · rename_i hst
      obtain ⟨r', he⟩ := executeDeposit_executed h1.wf h2 hx hst e
      have hst' : r'.status ≠ .notExecuted := by
        rcases he.outcome.2 with h | h
        · rw [h.1]; simp
        · rw [h.1]; simp
      have hkey : r'.key = x.key := by rw [he.outcome.1]; rfl
      refine ⟨⟨?_, ?_⟩, ?_, ?_, ?_⟩
      · intro r hr hs
        rcases (he.deposits r).1 hr with rfl | ⟨h, _⟩
        · exact absurd hs hst'
        · exact h2.1 r h hs
      · rw [he.rest.2.2.2.2.1]; exact h2.2
      · intro r hr
        rcases (he.deposits r).1 hr with rfl | ⟨h, hne⟩
        · exact Or.inr (Or.inr ⟨x, h0 x (by simp), hst, he.outcome⟩)
        · rcases h3 r h with hh | hh
          · rcases List.mem_cons.1 hh with rfl | hh
            · exact absurd rfl hne
            · exact Or.inl hh
          · exact Or.inr hh
      · intro id
        rw [← h4 id]
        unfold mintedByRequests
        rw [he.rest.2.2.2.2.1, he.supply, total_replace _ h1.wf.depsS.nodup hd.wf.depsS.nodup hx (Or.inl ?_) he.deposits]
        · have hp : r'.poolId = x.poolId := by rw [he.outcome.1]
          rw [hp, hst]
          by_cases e1 : x.poolId = id
          · subst e1
            rcases he.outcome.2 with h | h
            · rw [h.1, h.2.2]; simp
            · rw [h.1]; simp; ring
          · simp [e1, Ne.symm e1]
        · intro hc
          have := h1.wf.depsS.inj hc hx hkey
          rw [this] at hst'
          exact hst' hst
      · intro n
        rw [he.supply, ← h5 n]; simp
    · rename_i hst
      cases e
      refine ⟨h2, ?_, h4, h5⟩
      intro r hr
      rcases h3 r hr with hh | hh
      · rcases List.mem_cons.1 hh with rfl | hh
        · exact Or.inr (Or.inl ⟨h0 _ (by simp), hst⟩)
        · exact Or.inl hh
      · exact Or.inr hh
  · exact ⟨⟨hw, Relation.ReflTransGen.refl, hw.depsS.nodup, fun x hx => hx, rfl, rfl, PassFrame.refl s, fun r hr => Or.inl hr⟩,
      fun x hx => hx, hc, fun r hr => Or.inl hr, fun _ => rfl, fun _ => rfl⟩

/-- What the withdraw pass does. -/
theorem withdraw_pass_spec (hw : WF s) (hc : Clean s) {env : Env} (h : forEach (withdrawPass env) s.withdraws s = some s') :
    (∀ r' ∈ s'.withdraws, (r' ∈ s.withdraws ∧ r'.status ≠ .notExecuted) ∨ ∃ r ∈ s.withdraws, r.status = .notExecuted ∧ WithdrawOutcome r r') ∧
    (∀ id, s'.bank.supply (.pool id) - mintedByRequests s' id = s.bank.supply (.pool id) - mintedByRequests s id) ∧
    (∀ n, s'.bank.supply (.native n) = s.bank.supply (.native n)) := by
  have := forEach_inv (f := withdrawPass env) (fun xs t => Withdrawing s xs t ∧ (∀ x ∈ xs, x ∈ s.withdraws) ∧ Clean t ∧
    (∀ r' ∈ t.withdraws, r' ∈ xs ∨ (r' ∈ s.withdraws ∧ r'.status ≠ .notExecuted) ∨ ∃ r ∈ s.withdraws, r.status = .notExecuted ∧ WithdrawOutcome r r') ∧
    (∀ id, t.bank.supply (.pool id) - mintedByRequests t id = s.bank.supply (.pool id) - mintedByRequests s id) ∧
    (∀ n, t.bank.supply (.native n) = s.bank.supply (.native n))) ?_ _ _ _ ?_ h
  · refine ⟨fun r' hr' => ?_, this.2.2.2.2.1, this.2.2.2.2.2⟩
    rcases this.2.2.2.1 r' hr' with h1 | h1
    · cases h1
    · exact h1
  · rintro x xs t t' ⟨h1, h0, h2, h3, h4, h5⟩ e
    have hd := withdraw_step h1 e
    refine ⟨hd, fun y hy => h0 y (by simp [hy]), ?_⟩
    have hx := h1.pending x (by simp)
    unfold withdrawPass at e
    split at e
    · rename_i hst
      obtain ⟨r', he⟩ := executeWithdraw_executed h1.wf h2 hx hst e
      have hst' : r'.status ≠ .notExecuted := by
        rcases he.outcome.2 with h | h
        · rw [h.1]; simp
        · rw [h.1]; simp
      have hkey : r'.key = x.key := by rw [he.outcome.1]; rfl
      refine ⟨⟨?_, ?_⟩, ?_, ?_, ?_⟩
      · rw [he.rest.2.2.2.2.1]; exact h2.1
      · intro r hr hs
        rcases (he.withdraws r).1 hr with rfl | ⟨h, _⟩
        · exact absurd hs hst'
        · exact h2.2 r h hs
      · intro r hr
        rcases (he.withdraws r).1 hr with rfl | ⟨h, hne⟩
        · exact Or.inr (Or.inr ⟨x, h0 x (by simp), hst, he.outcome⟩)
        · rcases h3 r h with hh | hh
          · rcases List.mem_cons.1 hh with rfl | hh
            · exact absurd rfl hne
            · exact Or.inl hh
          · exact Or.inr hh
      · intro id
        rw [← h4 id]
        unfold mintedByRequests
        rw [he.rest.2.2.2.2.1, he.supply, total_replace _ h1.wf.wdsS.nodup hd.wf.wdsS.nodup hx (Or.inl ?_) he.withdraws]
        · have hp : r'.poolId = x.poolId := by rw [he.outcome.1]
          have hcn : r'.coin = x.coin := by rw [he.outcome.1]
          rw [hp, hst, hcn]
          by_cases e1 : x.poolId = id
          · subst e1
            rcases he.outcome.2 with h | h
            · rw [h.1]; simp
            · rw [h.1]; simp; ring
          · simp [e1, Ne.symm e1]
        · intro hc
          have := h1.wf.wdsS.inj hc hx hkey
          rw [this] at hst'
          exact hst' hst
      · intro n
        rw [he.supply, ← h5 n]; simp
    · rename_i hst
      cases e
      refine ⟨h2, ?_, h4, h5⟩
      intro r hr
      rcases h3 r hr with hh | hh
      · rcases List.mem_cons.1 hh with rfl | hh
        · exact Or.inr (Or.inl ⟨h0 _ (by simp), hst⟩)
        · exact Or.inl hh
      · exact Or.inr hh
  · exact ⟨⟨hw, Relation.ReflTransGen.refl, hw.wdsS.nodup, fun x hx => hx, rfl, rfl, PassFrame.refl s, fun r hr => Or.inl hr⟩,
      fun x hx => hx, hc, fun r hr => Or.inl hr, fun _ => rfl, fun _ => rfl⟩

/-- What a batch does to requests, supplies and orders. -/
structure BatchFacts (s s' : State) : Prop where
  deposits : ∀ r' ∈ s'.deposits, (r' ∈ s.deposits ∧ r'.status ≠ .notExecuted) ∨ ∃ r ∈ s.deposits, r.status = .notExecuted ∧ DepositOutcome r r'
  withdraws : ∀ r' ∈ s'.withdraws, (r' ∈ s.withdraws ∧ r'.status ≠ .notExecuted) ∨ ∃ r ∈ s.withdraws, r.status = .notExecuted ∧ WithdrawOutcome r r'
  supply : ∀ id, s'.bank.supply (.pool id) - mintedByRequests s' id = s.bank.supply (.pool id) - mintedByRequests s id
  native : ∀ n, s'.bank.supply (.native n) = s.bank.supply (.native n)
  orders : ∀ o ∈ s'.orders, ∃ o0 ∈ s.orders, SameOrder o0 o ∧ (¬ Unfinished o0 → o = o0) ∧
    (o0.status = .notExecuted → ¬ Unfinished o → o.openAmt = 0 ∨
      (o.status = .expired ∧ (o.expiredAt s.time = true ∨ isTooSmallOrderAmount o.openAmt o.price = true)))

theorem batch_facts (hw : WF s) (hc : Clean s) {env : Env} (h : executeRequests env s = some s') : BatchFacts s s' := by
  have hev := executeRequests_spec hw h
  unfold executeRequests at h
  split at h
  · cases h
  · rename_i s1 h1
    have m1 := matching_all hw h1
    have b1 : s1.bank.supply = s.bank.supply := rel_forEach supply_rel (fun s : State => s.bank) (fun x a b e => rel_executeMatching supply_rel e) h1
    split at h
    · cases h
    · rename_i s2 h2
      have m2 := expire_all m1.wf h2
      have b2 : s2.bank.supply = s1.bank.supply := rel_forEach supply_rel (fun s : State => s.bank) (fun x a b e => rel_expireOrder supply_rel e) h2
      split at h
      · cases h
      · rename_i s3 h3
        have m3 := deposit_all m2.wf h3
        have c2 : Clean s2 := by
          constructor
          · rw [m2.frame.deposits, m1.deposits]; exact hc.1
          · rw [m2.frame.withdraws, m1.withdraws]; exact hc.2
        obtain ⟨d1, d2, d3, d4⟩ := deposit_pass_spec m2.wf c2 h3
        have m4 := withdraw_all m3.wf h
        obtain ⟨w2, w3, w4⟩ := withdraw_pass_spec m3.wf d1 h
        have hm : ∀ id, mintedByRequests s2 id = mintedByRequests s id := by
          intro id
          unfold mintedByRequests
          rw [m2.frame.deposits, m1.deposits, m2.frame.withdraws, m1.withdraws]
        refine ⟨?_, ?_, ?_, ?_, ?_⟩
        · rw [m4.deposits]
          intro r' hr'
          have := d2 r' hr'
          rw [m2.frame.deposits, m1.deposits] at this
          exact this
        · intro r' hr'
          have := w2 r' hr'
          rw [m3.withdraws, m2.frame.withdraws, m1.withdraws] at this
          exact this
        · intro id
          rw [w3, d3, hm, b2, b1]
        · intro n
          rw [w4, d4, b2, b1]
        · intro o ho
          have ho2 := ho
          rw [m4.orders, m3.orders] at ho2
          obtain ⟨o1, k1, k2⟩ := m2.back o ho2
          obtain ⟨o0, l1, l2, l3, l4, _⟩ := m1.back o1 k1
          have hsame : SameOrder o0 o := by
            rcases k2 with rfl | ⟨_, rfl, _⟩
            · exact l2
            · exact l2
          refine ⟨o0, l1, hsame, ?_, ?_⟩
          · intro hu
            have hd : o0.done = true := by
              by_contra hcon
              exact hu ((done_iff o0).1 (by simpa using hcon))
            obtain ⟨_, _, p, hp1, e1, e2, _⟩ := hw.ords o0 l1
            obtain ⟨x, x1, x2, x3⟩ := (reach_evolves hw hev.reach).orders o ho p hp1 (by rw [e1, hsame.2.2.1]) (by rw [hsame.2.1]; exact e2)
            have : x = o0 := hw.ordersS.inj x1 l1 (by rw [← x2.key, hsame.key])
            subst this
            exact x3 hd
          · intro hn hu
            rcases k2 with rfl | ⟨k3, rfl, k4⟩
            · left
              refine l4 hn ?_
              by_contra hcon
              exact hu ((done_iff o).1 (by simpa using hcon))
            · right
              refine ⟨rfl, ?_⟩
              rw [m1.time] at k4
              exact k4

end Verif.Dex

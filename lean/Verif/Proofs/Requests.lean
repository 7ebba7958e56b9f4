import Verif.Proofs.Decompose
/-! # Exact effect of executing deposit and withdraw requests -/
namespace Verif.Dex
open Verif Verif.Amm Verif.Spec

variable {s s' : State}

theorem keeps_run {op : BulkOp} {b b' : Bank} (h : op.run b = some b') (hs : ∀ t ∈ op, t.src ≠ .globalEscrow) :
    KeepsEscrow b b' := fun d => run_mono h hs d

theorem amountOf_sub {a b : Coins} (h : (a.map (·.denom)).Nodup) (d : Denom) :
    amountOf (coinsSub a b) d = amountOf a d - (if d ∈ a.map (·.denom) then amountOf b d else 0) := by
  unfold coinsSub
  induction a with
  | nil => simp [amountOf]
  | cons c cs ih =>
    rw [List.map_cons, List.nodup_cons] at h
    rw [List.map_cons, amountOf_cons, ih h.2, amountOf_cons]
    simp only [List.map_cons, List.mem_cons]
    by_cases e : c.denom = d
    · subst e
      rw [if_pos rfl, if_pos rfl, if_neg h.1, if_pos (Or.inl rfl)]; ring
    · rw [if_neg e, if_neg e]
      by_cases e2 : d ∈ cs.map (·.denom)
      · rw [if_pos e2, if_pos (Or.inr e2)]; ring
      · rw [if_neg e2, if_neg (by rintro (h1 | h1); exact e h1.symm; exact e2 h1)]; ring

/-- Accepted plus refunded is offered. -/
theorem refund_total {coins accepted : Coins} (hnd : (coins.map (·.denom)).Nodup) (hacc : ∀ c ∈ accepted, 0 ≤ c.amt)
    (hle : ∀ c ∈ accepted, amountOf accepted c.denom ≤ amountOf coins c.denom) (d : Denom) :
    amountOf (coinsSub coins accepted) d + amountOf accepted d = amountOf coins d := by
  rw [amountOf_sub hnd]
  split
  · ring
  · rename_i h
    have h0 : amountOf coins d = 0 := amountOf_of_not_mem (fun c hc e => h (List.mem_map.2 ⟨c, hc, e⟩))
    have h1 : amountOf accepted d = 0 := by
      by_cases e : ∃ c ∈ accepted, c.denom = d
      · obtain ⟨c, hc, rfl⟩ := e
        have := hle c hc
        have := amountOf_nonneg hacc c.denom
        omega
      · push Not at e
        exact amountOf_of_not_mem e
    omega

theorem finishDeposit_spec {r : DepReq} {st : ReqStatus} (hst : r.status = .notExecuted) (h : finishDeposit r st s = some s') :
    ∃ b, s' = { s with bank := b }.setDeposit { r with status := st } ∧ BankStep s.bank b ∧
      (∀ a d, b.bal a d = s.bank.bal a d + transferEffect ⟨.globalEscrow, .user r.depositor, coinsSub r.coins r.accepted⟩ a d) ∧
      (∀ c ∈ coinsSub r.coins r.accepted, 0 ≤ c.amt) ∧
      (∀ c ∈ r.accepted, amountOf r.accepted c.denom ≤ amountOf r.coins c.denom) := by
  unfold finishDeposit at h
  rw [if_neg (by simp [hst])] at h
  simp only at h
  split at h
  · cases h
  · rename_i hneg
    simp only [Bool.or_eq_true, List.any_eq_true, decide_eq_true_eq, not_or, not_exists, not_and, not_lt] at hneg
    split at h
    · cases h
    · rename_i b hb
      have h := Option.some.inj h
      refine ⟨b, h.symm, ?_, ?_, hneg.1, hneg.2⟩
      · split at hb
        · have hb := Option.some.inj hb
          subst hb
          exact BankStep.refl _
        · exact bankStep_send hb
      · split at hb
        · rename_i hz
          have hb := Option.some.inj hb
          subst hb
          intro a d
          have : amountOf (coinsSub r.coins r.accepted) d = 0 := amountOf_zero (by
            intro c hc
            simpa using List.all_eq_true.1 hz c hc) d
          simp [transferEffect, this]
        · exact (send_some hb).2.2.2

/-- Effect of a failed deposit: a full refund. -/
def DepositFailed (r : DepReq) (pool : PoolRec) (s s' : State) : Prop :=
  ∃ t b, (t = s ∨ t = s.markDisabled pool) ∧ s' = { t with bank := b }.setDeposit { r with status := .failed } ∧
    BankStep s.bank b ∧
    ∀ a d, b.bal a d = s.bank.bal a d + transferEffect ⟨.globalEscrow, .user r.depositor, r.coins⟩ a d

/-- Effect of a successful deposit: the accepted coins go to the pool, the rest back, the minted coins to the depositor. -/
def DepositDone (env : Env) (r : DepReq) (pool : PoolRec) (pair : Pair) (s s' : State) : Prop :=
  ∃ ax ay pc b1 b, 0 < pc ∧
    deposit (env.depositOverflow (s.poolRx pool pair) (s.poolRy pool pair) (s.poolSupply pool) (amountOf r.coins pair.quote)
      (amountOf r.coins pair.base)) (s.poolRx pool pair) (s.poolRy pool pair) (s.poolSupply pool) (amountOf r.coins pair.quote)
      (amountOf r.coins pair.base) = some (ax, ay, pc) ∧
    0 ≤ ax ∧ ax ≤ amountOf r.coins pair.quote ∧ 0 ≤ ay ∧ ay ≤ amountOf r.coins pair.base ∧
    s' = { s with bank := b }.setDeposit
      { r with accepted := [⟨pair.quote, ax⟩, ⟨pair.base, ay⟩], minted := pc, status := .succeeded } ∧
    s.bank.mint ⟨.pool pool.id, pc⟩ = some b1 ∧ BankStep b1 b ∧
    ∀ a d, b.bal a d = b1.bal a d +
      transferEffect ⟨.globalEscrow, .poolReserve pool.id, [⟨pair.quote, ax⟩, ⟨pair.base, ay⟩]⟩ a d +
      transferEffect ⟨.dexModule, .user r.depositor, [⟨.pool pool.id, pc⟩]⟩ a d +
      transferEffect ⟨.globalEscrow, .user r.depositor, coinsSub r.coins [⟨pair.quote, ax⟩, ⟨pair.base, ay⟩]⟩ a d

theorem finishDeposit_fail (hw : WF s) {r : DepReq} (hr : r ∈ s.deposits) (hst : r.status = .notExecuted) {t : State} {pool : PoolRec}
    (ht : t = s ∨ t = s.markDisabled pool) (h : finishDeposit r .failed t = some s') : DepositFailed r pool s s' := by
  obtain ⟨b, e1, e2, e3, e4, e5⟩ := finishDeposit_spec hst h
  have hacc := (hw.deps r hr).2.2.2.2 hst
  have hnd := (hw.deps r hr).2.2.2.1
  have hb : t.bank = s.bank := by rcases ht with rfl | rfl <;> rfl
  rw [hb] at e2 e3
  refine ⟨t, b, ht, e1, e2, ?_⟩
  intro a d
  rw [e3 a d, hacc]
  unfold transferEffect
  simp only [amountOf_sub hnd, amountOf_nil, ite_self, sub_zero]

theorem run_two {op : BulkOp} {b b' : Bank} {s1 d1 s2 d2 : Addr} {c1 c2 : Coins}
    (ho : op = (BulkOp.queue [] s1 d1 c1).queue s2 d2 c2) (h : op.run b = some b') (a : Addr) (d : Denom) :
    b'.bal a d = b.bal a d + transferEffect ⟨s1, d1, c1⟩ a d + transferEffect ⟨s2, d2, c2⟩ a d := by
  have := (run_some h).2.1 a d
  rw [this, ho, queue_effect, queue_effect]
  simp [totalEffect]; ring

theorem run_nonneg_coins {op : BulkOp} {b b' : Bank} (h : op.run b = some b') : ∀ t ∈ op, ∀ c ∈ t.amt, 0 ≤ c.amt := by
  induction op generalizing b with
  | nil => simp
  | cons t ts ih =>
    simp only [BulkOp.run, Option.bind_eq_some_iff] at h
    obtain ⟨b1, h1, h2⟩ := h
    intro u hu
    rcases List.mem_cons.1 hu with rfl | hu
    · exact (send_some h1).1
    · exact ih h2 u hu

theorem queued_nonneg {op : BulkOp} {b b' : Bank} {s1 d1 s2 d2 : Addr} {c1 c2 : Coins} (hne : (s1, d1) ≠ (s2, d2))
    (ho : op = (BulkOp.queue [] s1 d1 c1).queue s2 d2 c2) (h : op.run b = some b') :
    (∀ c ∈ c1, 0 ≤ c.amt) ∧ (∀ c ∈ c2, 0 ≤ c.amt) := by
  have hz : ∀ cs : Coins, cs.all (fun c => c.amt == 0) = true → ∀ c ∈ cs, 0 ≤ c.amt := by
    intro cs hcs c hc
    have := List.all_eq_true.1 hcs c hc
    simp at this
    omega
  have hall := run_nonneg_coins h
  subst ho
  unfold BulkOp.queue at hall
  by_cases e1 : c1.all (fun c => c.amt == 0) = true
  · rw [if_pos e1] at hall
    refine ⟨hz c1 e1, ?_⟩
    by_cases e2 : c2.all (fun c => c.amt == 0) = true
    · exact hz c2 e2
    · rw [if_neg e2] at hall
      exact hall ⟨s2, d2, c2⟩ (by simp [BulkOp.add])
  · rw [if_neg e1] at hall
    by_cases e2 : c2.all (fun c => c.amt == 0) = true
    · rw [if_pos e2] at hall
      exact ⟨hall ⟨s1, d1, c1⟩ (by simp [BulkOp.add]), hz c2 e2⟩
    · rw [if_neg e2] at hall
      have hne' : ¬ (s1 = s2 ∧ d1 = d2) := fun e => hne (by rw [e.1, e.2])
      exact ⟨hall ⟨s1, d1, c1⟩ (by simp [BulkOp.add, hne']), hall ⟨s2, d2, c2⟩ (by simp [BulkOp.add, hne'])⟩

theorem executeDeposit_spec (hw : WF s) {env : Env} {r : DepReq} (hr : r ∈ s.deposits) (hst : r.status = .notExecuted)
    (h : executeDeposit env r s = some s') :
    ∃ pool pair, pool ∈ s.pools ∧ pool.id = r.poolId ∧ pair ∈ s.pairs ∧ pair.id = pool.pairId ∧
      (DepositFailed r pool s s' ∨ (pool.disabled = false ∧ DepositDone env r pool pair s s')) := by
  unfold executeDeposit at h
  split at h
  · cases h
  · rename_i pool hp
    obtain ⟨p1, p2⟩ := hw.getPool_iff.1 hp
    obtain ⟨q, q1, q2⟩ := (hw.poolIds pool p1).2.2
    split at h
    · exact ⟨pool, q, p1, p2, q1, q2, Or.inl (finishDeposit_fail hw hr hst (Or.inl rfl) h)⟩
    · rename_i hdis
      split at h
      · cases h
      · rename_i pair hpair
        obtain ⟨r1, r2⟩ := hw.getPair_iff.1 hpair
        refine ⟨pool, pair, p1, p2, r1, r2, ?_⟩
        have hnd := (hw.deps r hr).2.2.2.1
        simp only at h
        split at h
        · cases h
        · split at h
          · exact Or.inl (finishDeposit_fail hw hr hst (Or.inr rfl) h)
          · split at h
            · cases h
            · rename_i ax ay pc hdep
              split at h
              · exact Or.inl (finishDeposit_fail hw hr hst (Or.inl rfl) h)
              · rename_i hpc
                split at h
                · cases h
                · rename_i b1 hb1
                  split at h
                  · cases h
                  · rename_i b2 hb2
                    refine Or.inr ⟨by simpa using hdis, ?_⟩
                    obtain ⟨n1, n2⟩ := queued_nonneg (by simp) rfl hb2
                    obtain ⟨b, e1, e2, e3, e4, e5⟩ := finishDeposit_spec (r := { r with accepted := [⟨pair.quote, ax⟩, ⟨pair.base, ay⟩], minted := pc }) hst h
                    have hpos : 0 < pc := by
                      have := (mint_some hb1).1
                      simp only at this
                      omega
                    have hne := (hw.pairNe pair r1).1
                    have hax : 0 ≤ ax := n1 ⟨pair.quote, ax⟩ (by simp)
                    have hay : 0 ≤ ay := n1 ⟨pair.base, ay⟩ (by simp)
                    refine ⟨ax, ay, pc, b1, b, hpos, hdep, hax, ?_, hay, ?_, e1, hb1, (bankStep_run hb2).trans e2, ?_⟩
                    · have := e5 ⟨pair.quote, ax⟩ (by simp)
                      simpa [amountOf_cons, hne] using this
                    · have := e5 ⟨pair.base, ay⟩ (by simp)
                      simpa [amountOf_cons, Ne.symm hne] using this
                    · intro a d
                      rw [e3 a d]
                      show b2.bal a d + _ = _
                      rw [run_two rfl hb2 a d]

/-- A deposit request is executed by elementary changes. -/
theorem executeDeposit_reach (hw : WF s) {env : Env} {r : DepReq} (hr : r ∈ s.deposits) (hst : r.status = .notExecuted)
    (h : executeDeposit env r s = some s') : Reach s s' := by
  obtain ⟨pool, pair, p1, p2, q1, q2, hcase⟩ := executeDeposit_spec hw hr hst h
  rcases hcase with ⟨t, b, ht, rfl, hb, hbal⟩ | ⟨hdis, ax, ay, pc, b1, b, hpos, hdep, x1, x2, y1, y2, rfl, hm, hb, hbal⟩
  · have hesc : ∀ d, s.bank.bal .globalEscrow d - amountOf r.coins d ≤ b.bal .globalEscrow d := by
      intro d; rw [hbal]; simp [transferEffect]
    rcases ht with rfl | rfl
    · exact Reach.single (.finDeposit r _ b hr hst (by simp) ⟨rfl, rfl, rfl, rfl, rfl⟩ hb hesc)
    · exact (Reach.single (.disablePool pool p1)).tail
        (.finDeposit (s := s.markDisabled pool) r _ b hr hst (by simp) ⟨rfl, rfl, rfl, rfl, rfl⟩ hb hesc)
  · have hesc : ∀ d, b1.bal .globalEscrow d - amountOf r.coins d ≤ b.bal .globalEscrow d := by
      intro d
      rw [hbal]
      have hne := (hw.pairNe pair q1).1
      have ht := refund_total (accepted := [⟨pair.quote, ax⟩, ⟨pair.base, ay⟩]) (hw.deps r hr).2.2.2.1 (by
          intro c hc
          simp at hc
          rcases hc with rfl | rfl <;> simpa) (by
          intro c hc
          simp at hc
          rcases hc with rfl | rfl
          · simpa [amountOf_cons, hne] using x2
          · simpa [amountOf_cons, Ne.symm hne] using y2) d
      simp only [transferEffect]
      simp
      omega
    exact (Reach.single (.mint pool pc b1 p1 hdis hm)).tail
      (.finDeposit (s := { s with bank := b1 }) r _ b hr hst (by simp) ⟨rfl, rfl, rfl, rfl, rfl⟩ hb hesc)

theorem finishWithdraw_spec {r : WdReq} {st : ReqStatus} (hst : r.status = .notExecuted) (h : finishWithdraw r st s = some s') :
    ∃ b, s' = { s with bank := b }.setWithdraw { r with status := st } ∧ BankStep s.bank b ∧
      (st = .failed → ∀ a d, b.bal a d = s.bank.bal a d + transferEffect ⟨.globalEscrow, .user r.withdrawer, [r.coin]⟩ a d) ∧
      (st ≠ .failed → b = s.bank) := by
  unfold finishWithdraw at h
  rw [if_neg (by simp [hst])] at h
  split at h
  · cases h
  · rename_i b hb
    have h := Option.some.inj h
    refine ⟨b, h.symm, ?_, ?_, ?_⟩
    · split at hb
      · exact bankStep_send hb
      · have hb := Option.some.inj hb
        subst hb
        exact BankStep.refl _
    · intro e
      rw [if_pos e] at hb
      exact (send_some hb).2.2.2
    · intro e
      rw [if_neg e] at hb
      exact (Option.some.inj hb).symm

/-- Effect of a failed withdrawal: a full refund. -/
def WithdrawFailed (r : WdReq) (pool : PoolRec) (s s' : State) : Prop :=
  ∃ t b, (t = s ∨ t = s.markDisabled pool) ∧ s' = { t with bank := b }.setWithdraw { r with status := .failed } ∧
    BankStep s.bank b ∧
    ∀ a d, b.bal a d = s.bank.bal a d + transferEffect ⟨.globalEscrow, .user r.withdrawer, [r.coin]⟩ a d

/-- Effect of a successful withdrawal: the pool coins are burnt, the withdrawn coins go from the pool to the user. -/
def WithdrawDone (env : Env) (r : WdReq) (pool : PoolRec) (pair : Pair) (s s' : State) : Prop :=
  ∃ x y b1 b2, ¬ (x = 0 ∧ y = 0) ∧
    withdraw (env.withdrawOverflow (s.poolRx pool pair) (s.poolRy pool pair) (s.poolSupply pool) r.coin.amt s.params.withdrawFeeRate)
      (s.poolRx pool pair) (s.poolRy pool pair) (s.poolSupply pool) r.coin.amt s.params.withdrawFeeRate = some (x, y) ∧
    0 ≤ x ∧ 0 ≤ y ∧ BankStep s.bank b1 ∧
    (∀ a d, b1.bal a d = s.bank.bal a d + transferEffect ⟨.globalEscrow, .dexModule, [r.coin]⟩ a d +
      transferEffect ⟨.poolReserve pool.id, .user r.withdrawer, [⟨pair.quote, x⟩, ⟨pair.base, y⟩]⟩ a d) ∧
    b1.burn ⟨.pool pool.id, r.coin.amt⟩ = some b2 ∧
    s' = (if r.coin.amt = s.bank.supply (.pool pool.id) then { s with bank := b2 }.markDisabled pool
      else { s with bank := b2 }).setWithdraw { r with withdrawn := [⟨pair.quote, x⟩, ⟨pair.base, y⟩], status := .succeeded }

theorem finishWithdraw_fail {r : WdReq} (hst : r.status = .notExecuted) {t : State} {pool : PoolRec}
    (ht : t = s ∨ t = s.markDisabled pool) (h : finishWithdraw r .failed t = some s') : WithdrawFailed r pool s s' := by
  obtain ⟨b, e1, e2, e3, _⟩ := finishWithdraw_spec hst h
  have hb : t.bank = s.bank := by rcases ht with rfl | rfl <;> rfl
  rw [hb] at e2 e3
  exact ⟨t, b, ht, e1, e2, e3 rfl⟩

theorem executeWithdraw_spec (hw : WF s) {env : Env} {r : WdReq} (hr : r ∈ s.withdraws) (hst : r.status = .notExecuted)
    (h : executeWithdraw env r s = some s') :
    ∃ pool pair, pool ∈ s.pools ∧ pool.id = r.poolId ∧ pair ∈ s.pairs ∧ pair.id = pool.pairId ∧
      (WithdrawFailed r pool s s' ∨ (pool.disabled = false ∧ WithdrawDone env r pool pair s s')) := by
  unfold executeWithdraw at h
  split at h
  · cases h
  · rename_i pool hp
    obtain ⟨p1, p2⟩ := hw.getPool_iff.1 hp
    obtain ⟨q, q1, q2⟩ := (hw.poolIds pool p1).2.2
    split at h
    · exact ⟨pool, q, p1, p2, q1, q2, Or.inl (finishWithdraw_fail hst (Or.inl rfl) h)⟩
    · rename_i hdis
      split at h
      · cases h
      · rename_i pair hpair
        obtain ⟨r1, r2⟩ := hw.getPair_iff.1 hpair
        refine ⟨pool, pair, p1, p2, r1, r2, ?_⟩
        have hden : r.coin = ⟨.pool pool.id, r.coin.amt⟩ := by
          have := (hw.wds r hr).2.2.2
          rw [p2, ← this]
        simp only at h
        split at h
        · cases h
        · split at h
          · exact Or.inl (finishWithdraw_fail hst (Or.inr rfl) h)
          · split at h
            · cases h
            · rename_i x y hwd
              split at h
              · exact Or.inl (finishWithdraw_fail hst (Or.inl rfl) h)
              · rename_i hxy
                split at h
                · cases h
                · rename_i b1 hb1
                  split at h
                  · cases h
                  · rename_i b2 hb2
                    refine Or.inr ⟨by simpa using hdis, ?_⟩
                    obtain ⟨n1, n2⟩ := queued_nonneg (by simp) rfl hb1
                    obtain ⟨b, e1, e2, e3, e4⟩ := finishWithdraw_spec (r := { r with withdrawn := [⟨pair.quote, x⟩, ⟨pair.base, y⟩] }) hst h
                    have e4 := e4 (by simp)
                    refine ⟨x, y, b1, b2, hxy, hwd, n2 ⟨pair.quote, x⟩ (by simp), n2 ⟨pair.base, y⟩ (by simp), bankStep_run hb1,
                      fun a d => run_two rfl hb1 a d, by rw [← hden]; exact hb2, ?_⟩
                    rw [e1, e4]
                    show _ = (if r.coin.amt = s.poolSupply pool then _ else _ : State).setWithdraw _
                    split <;> rfl

theorem executeWithdraw_reach (hw : WF s) {env : Env} {r : WdReq} (hr : r ∈ s.withdraws) (hst : r.status = .notExecuted)
    (h : executeWithdraw env r s = some s') : Reach s s' := by
  obtain ⟨pool, pair, p1, p2, q1, q2, hcase⟩ := executeWithdraw_spec hw hr hst h
  rcases hcase with ⟨t, b, ht, rfl, hb, hbal⟩ | ⟨hdis, x, y, b1, b2, hxy, hwd, hx, hy, hb, hbal, hburn, rfl⟩
  · have hesc : ∀ d, s.bank.bal .globalEscrow d - amountOf [r.coin] d ≤ b.bal .globalEscrow d := by
      intro d; rw [hbal]; simp [transferEffect]
    rcases ht with rfl | rfl
    · exact Reach.single (.finWithdraw r _ b hr hst (by simp) ⟨rfl, rfl, rfl, rfl, rfl⟩ hb hesc)
    · exact (Reach.single (.disablePool pool p1)).tail
        (.finWithdraw (s := s.markDisabled pool) r _ b hr hst (by simp) ⟨rfl, rfl, rfl, rfl, rfl⟩ hb hesc)
  · have hesc : ∀ d, s.bank.bal .globalEscrow d - amountOf [r.coin] d ≤ b1.bal .globalEscrow d := by
      intro d; rw [hbal]; simp [transferEffect]
    have h1 : Atom s ({ s with bank := b1 }.setWithdraw
        { r with withdrawn := [⟨pair.quote, x⟩, ⟨pair.base, y⟩], status := .succeeded }) :=
      .finWithdraw r _ b1 hr hst (by simp) ⟨rfl, rfl, rfl, rfl, rfl⟩ hb hesc
    have h2 := Atom.burn (s := ({ s with bank := b1 }.setWithdraw
        { r with withdrawn := [⟨pair.quote, x⟩, ⟨pair.base, y⟩], status := .succeeded })) pool r.coin.amt b2 p1 hdis hburn
    refine (Reach.single h1).tail ?_
    have e : b1.supply = s.bank.supply := hb.supply
    have e' : ({ s with bank := b1 }.setWithdraw
        { r with withdrawn := [⟨pair.quote, x⟩, ⟨pair.base, y⟩], status := .succeeded }).bank.supply = s.bank.supply := e
    rw [e'] at h2
    split at h2
    · rename_i hc; rw [if_pos hc]; exact h2
    · rename_i hc; rw [if_neg hc]; exact h2

end Verif.Dex

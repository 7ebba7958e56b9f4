import Verif.Proofs.Steps
/-! # What can never be undone in a history -/
namespace Verif.Dex
open Verif Verif.Amm Verif.Spec

structure Evolves (a b : State) : Prop where
  pairs : ∀ p ∈ a.pairs, ∃ p' ∈ b.pairs, p'.id = p.id ∧ p'.base = p.base ∧ p'.quote = p.quote ∧ p.lastOrderId ≤ p'.lastOrderId ∧
    p.batchId ≤ p'.batchId
  pools : ∀ p ∈ a.pools, ∃ p' ∈ b.pools, p'.id = p.id ∧ p'.pairId = p.pairId ∧ p'.creator = p.creator ∧ p'.range = p.range ∧
    p.lastDepositId ≤ p'.lastDepositId ∧ p.lastWithdrawId ≤ p'.lastWithdrawId ∧ (p.disabled = true → p'.disabled = true)
  orders : ∀ o ∈ b.orders, ∀ p ∈ a.pairs, p.id = o.pairId → o.id ≤ p.lastOrderId →
    ∃ o0 ∈ a.orders, SameOrder o0 o ∧ (o0.done = true → o = o0)
  deps : ∀ r ∈ b.deposits, ∀ p ∈ a.pools, p.id = r.poolId → r.id ≤ p.lastDepositId →
    ∃ r0 ∈ a.deposits, (r.id = r0.id ∧ r.poolId = r0.poolId ∧ r.msgHeight = r0.msgHeight ∧ r.depositor = r0.depositor ∧ r.coins = r0.coins) ∧
      (r0.status ≠ .notExecuted → r = r0)
  wds : ∀ r ∈ b.withdraws, ∀ p ∈ a.pools, p.id = r.poolId → r.id ≤ p.lastWithdrawId →
    ∃ r0 ∈ a.withdraws, (r.id = r0.id ∧ r.poolId = r0.poolId ∧ r.msgHeight = r0.msgHeight ∧ r.withdrawer = r0.withdrawer ∧ r.coin = r0.coin) ∧
      (r0.status ≠ .notExecuted → r = r0)
  lastPair : a.lastPairId ≤ b.lastPairId
  lastPool : a.lastPoolId ≤ b.lastPoolId
  native : ∀ n, b.bank.supply (.native n) = a.bank.supply (.native n)

theorem Evolves.refl (s : State) : Evolves s s where
  pairs := fun p hp => ⟨p, hp, rfl, rfl, rfl, le_refl _, le_refl _⟩
  pools := fun p hp => ⟨p, hp, rfl, rfl, rfl, rfl, le_refl _, le_refl _, id⟩
  orders := fun o ho _ _ _ _ => ⟨o, ho, SameOrder.refl o, fun _ => rfl⟩
  deps := fun r hr _ _ _ _ => ⟨r, hr, ⟨rfl, rfl, rfl, rfl, rfl⟩, fun _ => rfl⟩
  wds := fun r hr _ _ _ _ => ⟨r, hr, ⟨rfl, rfl, rfl, rfl, rfl⟩, fun _ => rfl⟩
  lastPair := le_refl _
  lastPool := le_refl _
  native := fun _ => rfl

theorem Evolves.trans {a b c : State} (h : Evolves a b) (h' : Evolves b c) : Evolves a c where
  pairs := by
    intro p hp
    obtain ⟨q, hq, e1, e2, e3, e4, e5⟩ := h.pairs p hp
    obtain ⟨r, hr, f1, f2, f3, f4, f5⟩ := h'.pairs q hq
    exact ⟨r, hr, f1.trans e1, f2.trans e2, f3.trans e3, e4.trans f4, e5.trans f5⟩
  pools := by
    intro p hp
    obtain ⟨q, hq, e1, e2, e3, e4, e5, e6, e7⟩ := h.pools p hp
    obtain ⟨r, hr, f1, f2, f3, f4, f5, f6, f7⟩ := h'.pools q hq
    exact ⟨r, hr, f1.trans e1, f2.trans e2, f3.trans e3, f4.trans e4, e5.trans f5, e6.trans f6, fun e => f7 (e7 e)⟩
  orders := by
    intro o ho p hp hid hle
    obtain ⟨q, hq, e1, e2, e3, e4, e5⟩ := h.pairs p hp
    obtain ⟨o1, ho1, s1, d1⟩ := h'.orders o ho q hq (e1.trans hid) (hle.trans e4)
    have s1' := s1
    unfold SameOrder at s1'
    obtain ⟨o0, ho0, s0, d0⟩ := h.orders o1 ho1 p hp (hid.trans s1'.2.2.1) (by rw [← s1'.2.1]; exact hle)
    refine ⟨o0, ho0, s0.trans s1, fun e => ?_⟩
    have := d0 e
    subst this
    exact d1 e
  deps := by
    intro o ho p hp hid hle
    obtain ⟨q, hq, e1, e2, e3, e4, e5, e6, e7⟩ := h.pools p hp
    obtain ⟨o1, ho1, s1, d1⟩ := h'.deps o ho q hq (e1.trans hid) (hle.trans e5)
    obtain ⟨o0, ho0, s0, d0⟩ := h.deps o1 ho1 p hp (hid.trans s1.2.1) (by rw [← s1.1]; exact hle)
    refine ⟨o0, ho0, ⟨s1.1.trans s0.1, s1.2.1.trans s0.2.1, s1.2.2.1.trans s0.2.2.1, s1.2.2.2.1.trans s0.2.2.2.1,
      s1.2.2.2.2.trans s0.2.2.2.2⟩, fun e => ?_⟩
    have := d0 e
    subst this
    exact d1 e
  wds := by
    intro o ho p hp hid hle
    obtain ⟨q, hq, e1, e2, e3, e4, e5, e6, e7⟩ := h.pools p hp
    obtain ⟨o1, ho1, s1, d1⟩ := h'.wds o ho q hq (e1.trans hid) (hle.trans e6)
    obtain ⟨o0, ho0, s0, d0⟩ := h.wds o1 ho1 p hp (hid.trans s1.2.1) (by rw [← s1.1]; exact hle)
    refine ⟨o0, ho0, ⟨s1.1.trans s0.1, s1.2.1.trans s0.2.1, s1.2.2.1.trans s0.2.2.1, s1.2.2.2.1.trans s0.2.2.2.1,
      s1.2.2.2.2.trans s0.2.2.2.2⟩, fun e => ?_⟩
    have := d0 e
    subst this
    exact d1 e
  lastPair := h.lastPair.trans h'.lastPair
  lastPool := h.lastPool.trans h'.lastPool
  native := fun n => (h'.native n).trans (h.native n)

/-- Replacing a pool by one with the same identity. -/
theorem evolves_setPool {s : State} (hw : WF s) {p p' : PoolRec} (hp : p ∈ s.pools) (hid : p'.id = p.id) (h1 : p'.pairId = p.pairId)
    (h2 : p'.creator = p.creator) (h3 : p'.range = p.range) (h4 : p.lastDepositId ≤ p'.lastDepositId)
    (h5 : p.lastWithdrawId ≤ p'.lastWithdrawId) (h6 : p.disabled = true → p'.disabled = true) : Evolves s (s.setPool p') :=
  { Evolves.refl s with
    pools := by
      intro q hq
      by_cases e : q = p
      · subst e
        exact ⟨p', (hw.mem_setPool hp hid).2 (Or.inl rfl), hid, h1, h2, h3, h4, h5, h6⟩
      · exact ⟨q, (hw.mem_setPool hp hid).2 (Or.inr ⟨hq, e⟩), rfl, rfl, rfl, rfl, le_refl _, le_refl _, id⟩ }

/-- Replacing a pair by one with the same identity. -/
theorem evolves_setPair {s : State} (hw : WF s) {p p' : Pair} (hp : p ∈ s.pairs) (hid : p'.id = p.id) (h1 : p'.base = p.base)
    (h2 : p'.quote = p.quote) (h4 : p.lastOrderId ≤ p'.lastOrderId) (h5 : p.batchId ≤ p'.batchId) : Evolves s (s.setPair p') :=
  { Evolves.refl s with
    pairs := by
      intro q hq
      by_cases e : q = p
      · subst e
        exact ⟨p', (hw.mem_setPair hp hid).2 (Or.inl rfl), hid, h1, h2, h4, h5⟩
      · exact ⟨q, (hw.mem_setPair hp hid).2 (Or.inr ⟨hq, e⟩), rfl, rfl, rfl, le_refl _, le_refl _⟩ }

/-- Replacing a live order. -/
theorem evolves_setOrder {s : State} (hw : WF s) {o o' : OrderRec} (ho : o ∈ s.orders) (hd : o.done = false) (hs : SameOrder o o') :
    Evolves s (s.setOrder o') :=
  { Evolves.refl s with
    orders := by
      intro x hx p hp e1 e2
      rcases (hw.mem_setOrder ho hs.key).1 hx with rfl | ⟨h1, _⟩
      · exact ⟨o, ho, hs, fun e => by rw [hd] at e; cases e⟩
      · exact ⟨x, h1, SameOrder.refl x, fun _ => rfl⟩ }

theorem evolves_bank {s : State} {b : Bank} (h : ∀ n, b.supply (.native n) = s.bank.supply (.native n)) : Evolves s { s with bank := b } :=
  { Evolves.refl s with native := h }

theorem evolves_numMM {s : State} {f : Nat → Nat → Option Nat} : Evolves s { s with numMM := f } := { Evolves.refl s with }

theorem evolves_decMM {s : State} {o : OrderRec} : Evolves s (s.decMM o) := by
  unfold State.decMM; split
  · exact evolves_numMM
  · exact Evolves.refl s

theorem evolves_incMM {s : State} {o : OrderRec} : Evolves s (s.incMM o) := by
  unfold State.incMM; split
  · exact evolves_numMM
  · exact Evolves.refl s

theorem evolves_atom {a b : State} (hw : WF a) (h : Atom a b) : Evolves a b := by
  cases h with
  | bank b h hg => exact evolves_bank (fun n => by rw [h.supply])
  | newPair base quote hne hu =>
    refine { Evolves.refl a with pairs := ?_, lastPair := Nat.le_succ _ }
    intro p hp
    refine ⟨p, hw.pairsS.mem_upsert.2 (Or.inr ⟨hp, ?_⟩), rfl, rfl, rfl, le_refl _, le_refl _⟩
    intro e
    have := (hw.pairIds p hp).2
    have e := Pair.key_iff.1 e
    simp only [Dex.newPair] at e
    omega
  | nextBatch pair lp g hp ho =>
    have hw' : WF { a with shortfall := g } := { hw with }
    exact Evolves.trans (b := { a with shortfall := g }) { Evolves.refl a with }
      (evolves_setPair hw' hp rfl rfl rfl (le_refl _) (Nat.le_succ _))
  | newPool pair creator range amt b hp hb hcap ha hm =>
    refine { Evolves.refl a with pools := ?_, lastPool := Nat.le_succ _, native := ?_ }
    · intro p hp
      refine ⟨p, hw.poolsS.mem_upsert.2 (Or.inr ⟨hp, ?_⟩), rfl, rfl, rfl, rfl, le_refl _, le_refl _, id⟩
      intro e
      have := (hw.poolIds p hp).2.1
      have e := PoolRec.key_iff.1 e
      simp only [Dex.newPool] at e
      omega
    · intro n
      show b.supply _ = _
      rw [(mint_some hm).2.2]; simp
  | disablePool pool hp => exact evolves_setPool hw hp rfl rfl rfl rfl (le_refl _) (le_refl _) (fun _ => rfl)
  | mint pool amt b hp ha hm => exact evolves_bank (fun n => by rw [(mint_some hm).2.2]; simp)
  | burn pool amt b hp ha hm =>
    have h1 : Evolves a { a with bank := b } := evolves_bank (fun n => by rw [(burn_some hm).2.2.2]; simp)
    split
    · exact { evolves_setPool (p' := { pool with disabled := true }) hw hp rfl rfl rfl rfl (le_refl _) (le_refl _) (fun _ => rfl) with
        native := h1.native }
    · exact h1
  | newDeposit pool r b hp ha h hb hid hpid hacc hst hpos hnd hh =>
    have h1 := evolves_setPool (p' := { pool with lastDepositId := pool.lastDepositId + 1 }) hw hp rfl rfl rfl rfl (Nat.le_succ _)
      (le_refl _) id
    refine { h1 with deps := ?_, native := fun n => by show b.supply _ = _; rw [h.supply] }
    intro x hx p hp' e1 e2
    rcases mem_upsert_of hx with rfl | hx
    · exfalso
      have : p = pool := hw.key_pool hp' hp (by rw [e1, hpid])
      subst this
      omega
    · exact ⟨x, hx, ⟨rfl, rfl, rfl, rfl, rfl⟩, fun _ => rfl⟩
  | newWithdraw pool r b hp ha h hb hid hpid hst hden hpos hh =>
    have h1 := evolves_setPool (p' := { pool with lastWithdrawId := pool.lastWithdrawId + 1 }) hw hp rfl rfl rfl rfl (le_refl _)
      (Nat.le_succ _) id
    refine { h1 with wds := ?_, native := fun n => by show b.supply _ = _; rw [h.supply] }
    intro x hx p hp' e1 e2
    rcases mem_upsert_of hx with rfl | hx
    · exfalso
      have : p = pool := hw.key_pool hp' hp (by rw [e1, hpid])
      subst this
      omega
    · exact ⟨x, hx, ⟨rfl, rfl, rfl, rfl, rfl⟩, fun _ => rfl⟩
  | finDeposit r r' b hr hst hst' hs h hb =>
    refine { Evolves.refl a with deps := ?_, native := fun n => by show b.supply _ = _; rw [h.supply] }
    intro x hx p hp e1 e2
    rcases (hw.mem_setDeposit hr (by simp [DepReq.key, hs])).1 hx with rfl | ⟨h1, _⟩
    · exact ⟨r, hr, hs, fun e => absurd hst e⟩
    · exact ⟨x, h1, ⟨rfl, rfl, rfl, rfl, rfl⟩, fun _ => rfl⟩
  | finWithdraw r r' b hr hst hst' hs h hb =>
    refine { Evolves.refl a with wds := ?_, native := fun n => by show b.supply _ = _; rw [h.supply] }
    intro x hx p hp e1 e2
    rcases (hw.mem_setWithdraw hr (by simp [WdReq.key, hs])).1 hx with rfl | ⟨h1, _⟩
    · exact ⟨r, hr, hs, fun e => absurd hst e⟩
    · exact ⟨x, h1, ⟨rfl, rfl, rfl, rfl, rfl⟩, fun _ => rfl⟩
  | newOrder pair o b hp h hg hid hpid hbid hst hopen hrem hpr hoff hdem hcap =>
    refine Evolves.trans (b := (({ a with bank := b }.setPair { pair with lastOrderId := pair.lastOrderId + 1 }).setOrder o)) ?_ evolves_incMM
    have h1 := evolves_setPair (p' := { pair with lastOrderId := pair.lastOrderId + 1 }) hw hp rfl rfl rfl (Nat.le_succ _) (le_refl _)
    refine { h1 with orders := ?_, native := fun n => by show b.supply _ = _; rw [h.supply] }
    intro x hx p hp' e1 e2
    rcases mem_upsert_of hx with rfl | hx
    · exfalso
      have : p = pair := hw.key_pair hp' hp (by rw [e1, hpid])
      subst this
      omega
    · exact ⟨x, hx, SameOrder.refl x, fun _ => rfl⟩
  | updOrder o o' ho hd hst hs hrem => exact evolves_setOrder hw ho hd hs
  | finOrder o o' b ho hd hd' hs hrem h hg =>
    refine Evolves.trans (b := { a with bank := b }.setOrder o') ?_ evolves_decMM
    exact { evolves_setOrder hw ho hd hs with native := fun n => by show b.supply _ = _; rw [h.supply] }

theorem evolves_beginBlock (s : State) (height : Nat) (time : Int) : Evolves s (beginBlock height time s) :=
  { Evolves.refl s with
    orders := fun o ho _ _ _ _ => ⟨o, (List.mem_filter.1 ho).1, SameOrder.refl o, fun _ => rfl⟩
    deps := fun r hr _ _ _ _ => ⟨r, (List.mem_filter.1 hr).1, ⟨rfl, rfl, rfl, rfl, rfl⟩, fun _ => rfl⟩
    wds := fun r hr _ _ _ _ => ⟨r, (List.mem_filter.1 hr).1, ⟨rfl, rfl, rfl, rfl, rfl⟩, fun _ => rfl⟩ }

theorem run_evolves {env : Env} {ops : List Op} {s s' : State} (hw : WF s) (h : run env ops s = some s') : Evolves s s' :=
  run_rel (R := Evolves) Evolves.refl (fun _ _ _ => Evolves.trans) (fun _ _ => evolves_atom)
    (fun a p _ _ => { Evolves.refl a with }) (fun a ht t _ => evolves_beginBlock a ht t) hw h

theorem reach_evolves {s s' : State} (hw : WF s) (h : Reach s s') : Evolves s s' :=
  reach_rel (R := Evolves) Evolves.refl (fun _ _ _ => Evolves.trans) (fun _ _ => evolves_atom) hw h

end Verif.Dex

import Verif.Proofs.Evolve
import Verif.Proofs.OrderFlow
import Verif.Spec.History
import Mathlib.Data.List.Sort
/-! # Facts about histories used by C37-C45 -/
namespace Verif.Dex
open Verif Verif.Amm Verif.Spec

variable {s s' : State}

theorem sameTerms_iff {a b : OrderRec} : SameTerms a b ↔ SameOrder a b := by
  unfold SameTerms SameOrder
  constructor
  · intro h; rw [h]; simp
  · intro h
    cases a; cases b
    simp_all

/-- Nothing is deleted. -/
structure Keeps (a b : State) : Prop where
  orders : ∀ o ∈ a.orders, ∃ o' ∈ b.orders, SameOrder o o'
  deps : ∀ r ∈ a.deposits, ∃ r' ∈ b.deposits, SameDeposit r r'
  wds : ∀ r ∈ a.withdraws, ∃ r' ∈ b.withdraws, SameWithdraw r r'
  pools : ∀ p ∈ b.pools, p.id ≤ a.lastPoolId → ∃ p0 ∈ a.pools, p0.id = p.id ∧ p0.pairId = p.pairId ∧ p0.creator = p.creator ∧ p0.range = p.range

theorem SameDeposit.refl (r : DepReq) : SameDeposit r r := rfl
theorem SameWithdraw.refl (r : WdReq) : SameWithdraw r r := rfl

theorem SameDeposit.trans {a b c : DepReq} (h : SameDeposit a b) (h' : SameDeposit b c) : SameDeposit a c := by
  unfold SameDeposit at *; cases a; cases b; cases c; simp_all

theorem SameWithdraw.trans {a b c : WdReq} (h : SameWithdraw a b) (h' : SameWithdraw b c) : SameWithdraw a c := by
  unfold SameWithdraw at *; cases a; cases b; cases c; simp_all

theorem sameDeposit_of {r0 r : DepReq} (h : r.id = r0.id ∧ r.poolId = r0.poolId ∧ r.msgHeight = r0.msgHeight ∧
    r.depositor = r0.depositor ∧ r.coins = r0.coins) : SameDeposit r0 r := by
  unfold SameDeposit; cases r; cases r0; simp_all

theorem sameWithdraw_of {r0 r : WdReq} (h : r.id = r0.id ∧ r.poolId = r0.poolId ∧ r.msgHeight = r0.msgHeight ∧
    r.withdrawer = r0.withdrawer ∧ r.coin = r0.coin) : SameWithdraw r0 r := by
  unfold SameWithdraw; cases r; cases r0; simp_all

theorem upsert_keeps {α : Type} {key : α → Key} {l : List α} (h : Sorted key l) (v : α) {R : α → α → Prop} (hr : ∀ x, R x x)
    (hv : ∀ x ∈ l, key x = key v → R x v) : ∀ x ∈ l, ∃ y ∈ upsert key v l, R x y := by
  intro x hx
  by_cases e : key x = key v
  · exact ⟨v, h.mem_upsert.2 (Or.inl rfl), hv x hx e⟩
  · exact ⟨x, h.mem_upsert.2 (Or.inr ⟨hx, e⟩), hr x⟩

theorem decMM_orders (s : State) (o : OrderRec) : (s.decMM o).orders = s.orders ∧ (s.decMM o).deposits = s.deposits ∧
    (s.decMM o).withdraws = s.withdraws ∧ (s.decMM o).params = s.params ∧ (s.decMM o).pairs = s.pairs ∧ (s.decMM o).pools = s.pools ∧
    (s.decMM o).bank = s.bank ∧ (s.decMM o).lastPoolId = s.lastPoolId := by
  unfold State.decMM; split <;> exact ⟨rfl, rfl, rfl, rfl, rfl, rfl, rfl, rfl⟩

theorem incMM_orders (s : State) (o : OrderRec) : (s.incMM o).orders = s.orders ∧ (s.incMM o).deposits = s.deposits ∧
    (s.incMM o).withdraws = s.withdraws ∧ (s.incMM o).params = s.params ∧ (s.incMM o).pairs = s.pairs ∧ (s.incMM o).pools = s.pools ∧
    (s.incMM o).bank = s.bank ∧ (s.incMM o).lastPoolId = s.lastPoolId := by
  unfold State.incMM; split <;> exact ⟨rfl, rfl, rfl, rfl, rfl, rfl, rfl, rfl⟩

theorem Keeps.refl (s : State) : Keeps s s :=
  ⟨fun o ho => ⟨o, ho, SameOrder.refl o⟩, fun r hr => ⟨r, hr, rfl⟩, fun r hr => ⟨r, hr, rfl⟩, fun p hp _ => ⟨p, hp, rfl, rfl, rfl, rfl⟩⟩

theorem keeps_setPool (hw : WF s) {p p' : PoolRec} (hp : p ∈ s.pools) (h1 : p'.id = p.id) (h2 : p'.pairId = p.pairId)
    (h3 : p'.creator = p.creator) (h4 : p'.range = p.range) : ∀ x ∈ (s.setPool p').pools, x.id ≤ s.lastPoolId →
      ∃ p0 ∈ s.pools, p0.id = x.id ∧ p0.pairId = x.pairId ∧ p0.creator = x.creator ∧ p0.range = x.range := by
  intro x hx _
  rcases (hw.mem_setPool hp h1).1 hx with rfl | ⟨h, _⟩
  · exact ⟨p, hp, h1.symm, h2.symm, h3.symm, h4.symm⟩
  · exact ⟨x, h, rfl, rfl, rfl, rfl⟩

theorem keeps_atom {a b : State} (hw : WF a) (h : Atom a b) : Keeps a b := by
  have R := Keeps.refl a
  cases h with
  | bank b h hg => exact { R with }
  | newPair base quote hne hu => exact { R with }
  | nextBatch pair lp g hp ho => exact { R with }
  | newPool pair creator range amt b hp hb hcap ha hm =>
    refine { R with pools := ?_ }
    intro p hp hle
    rcases mem_upsert_of hp with rfl | hp
    · simp only [newPool] at hle; omega
    · exact ⟨p, hp, rfl, rfl, rfl, rfl⟩
  | disablePool pool hp => exact { R with pools := keeps_setPool hw hp rfl rfl rfl rfl }
  | mint pool amt b hp ha hm => exact { R with }
  | burn pool amt b hp ha hm =>
    split
    · exact { R with pools := keeps_setPool (s := a) hw hp rfl rfl rfl rfl }
    · exact { R with }
  | newDeposit pool r b hp ha h hb hid hpid hacc hst hpos hnd hh =>
    refine { R with deps := ?_, pools := keeps_setPool (s := a) hw hp rfl rfl rfl rfl }
    refine upsert_keeps hw.depsS r (fun _ => rfl) (fun x hx e => ?_)
    exfalso
    obtain ⟨_, ⟨p, hp', e1, e2⟩, _⟩ := hw.deps x hx
    simp only [DepReq.key, Prod.mk.injEq] at e
    have := hw.key_pool hp' hp (by rw [e1, e.1, hpid])
    subst this
    omega
  | newWithdraw pool r b hp ha h hb hid hpid hst hden hpos hh =>
    refine { R with wds := ?_, pools := keeps_setPool (s := a) hw hp rfl rfl rfl rfl }
    refine upsert_keeps hw.wdsS r (fun _ => rfl) (fun x hx e => ?_)
    exfalso
    obtain ⟨_, ⟨p, hp', e1, e2⟩, _⟩ := hw.wds x hx
    simp only [WdReq.key, Prod.mk.injEq] at e
    have := hw.key_pool hp' hp (by rw [e1, e.1, hpid])
    subst this
    omega
  | finDeposit r r' b hr hst hst' hs h hb =>
    refine { R with deps := upsert_keeps hw.depsS r' (fun _ => rfl) (fun x hx e => ?_) }
    have : x = r := hw.depsS.inj hx hr (by rw [e]; simp [DepReq.key, hs])
    subst this
    exact sameDeposit_of hs
  | finWithdraw r r' b hr hst hst' hs h hb =>
    refine { R with wds := upsert_keeps hw.wdsS r' (fun _ => rfl) (fun x hx e => ?_) }
    have : x = r := hw.wdsS.inj hx hr (by rw [e]; simp [WdReq.key, hs])
    subst this
    exact sameWithdraw_of hs
  | newOrder pair o b hp h hg hid hpid hbid hst hopen hrem hpr hoff hdem hcap =>
    obtain ⟨e1, e2, e3, e4, e5, e6, e7, e8⟩ := incMM_orders (({ a with bank := b }.setPair { pair with lastOrderId := pair.lastOrderId + 1 }).setOrder o) o
    refine ⟨?_, by rw [e2]; exact R.deps, by rw [e3]; exact R.wds, by rw [e6]; exact R.pools⟩
    rw [e1]
    refine upsert_keeps hw.ordersS o SameOrder.refl (fun x hx e => ?_)
    exfalso
    obtain ⟨_, _, p, hp', k1, k2, _⟩ := hw.ords x hx
    simp only [OrderRec.key, Prod.mk.injEq] at e
    have := hw.key_pair hp' hp (by rw [k1, e.1, hpid])
    subst this
    omega
  | updOrder o o' ho hd hst hs hrem =>
    refine { R with orders := upsert_keeps hw.ordersS o' SameOrder.refl (fun x hx e => ?_) }
    have : x = o := hw.ordersS.inj hx ho (by rw [e, hs.key])
    subst this
    exact hs
  | finOrder o o' b ho hd hd' hs hrem h hg =>
    obtain ⟨e1, e2, e3, e4, e5, e6, e7, e8⟩ := decMM_orders ({ a with bank := b }.setOrder o') o'
    refine ⟨?_, by rw [e2]; exact R.deps, by rw [e3]; exact R.wds, by rw [e6]; exact R.pools⟩
    rw [e1]
    refine upsert_keeps hw.ordersS o' SameOrder.refl (fun x hx e => ?_)
    have : x = o := hw.ordersS.inj hx ho (by rw [e, hs.key])
    subst this
    exact hs

theorem Keeps.trans {a b c : State} (h : Keeps a b) (h' : Keeps b c) (hl : a.lastPoolId ≤ b.lastPoolId) : Keeps a c where
  orders := by
    intro o ho
    obtain ⟨o1, h1, e1⟩ := h.orders o ho
    obtain ⟨o2, h2, e2⟩ := h'.orders o1 h1
    exact ⟨o2, h2, e1.trans e2⟩
  deps := by
    intro o ho
    obtain ⟨o1, h1, e1⟩ := h.deps o ho
    obtain ⟨o2, h2, e2⟩ := h'.deps o1 h1
    exact ⟨o2, h2, SameDeposit.trans e1 e2⟩
  wds := by
    intro o ho
    obtain ⟨o1, h1, e1⟩ := h.wds o ho
    obtain ⟨o2, h2, e2⟩ := h'.wds o1 h1
    exact ⟨o2, h2, SameWithdraw.trans e1 e2⟩
  pools := by
    intro p hp hle
    obtain ⟨q, hq, e1, e2, e3, e4⟩ := h'.pools p hp (hle.trans hl)
    obtain ⟨r, hr, f1, f2, f3, f4⟩ := h.pools q hq (by omega)
    exact ⟨r, hr, f1.trans e1, f2.trans e2, f3.trans e3, f4.trans e4⟩

theorem reach_keeps (hw : WF s) (h : Reach s s') : Keeps s s' :=
  (reach_rel (R := fun a b => Keeps a b ∧ a.lastPoolId ≤ b.lastPoolId) (fun s => ⟨Keeps.refl s, le_refl _⟩)
    (fun _ _ _ h h' => ⟨h.1.trans h'.1 h.2, h.2.trans h'.2⟩)
    (fun _ _ hw h => ⟨keeps_atom hw h, (evolves_atom hw h).lastPool⟩) hw h).1

theorem atom_params {a b : State} (h : Atom a b) : b.params = a.params := by
  cases h with
  | burn pool amt b hp ha hm => split <;> rfl
  | newOrder pair o b hp h hg hid hpid hbid hst hopen hrem hpr hoff hdem hcap =>
    rw [(incMM_orders _ _).2.2.2.1]; rfl
  | finOrder o o' b ho hd hd' hs hrem h hg => rw [(decMM_orders _ _).2.2.2.1]; rfl
  | _ => rfl

theorem reach_params (h : Reach s s') : s'.params = s.params := by
  induction h with
  | refl => rfl
  | tail _ h ih => rw [atom_params h, ih]

/-- The market-making counters stay below a bound for all caps in force. -/
def MMBound (M : Nat) (s : State) : Prop := ∀ a p, s.getNumMM a p ≤ M

theorem mm_atom {a b : State} {M : Nat} (h : Atom a b) (hp : a.params.maxNumMMOrders ≤ M) (hb : MMBound M a) : MMBound M b := by
  cases h with
  | burn pool amt b hp ha hm => split <;> exact hb
  | newOrder pair o b hp h hg hid hpid hbid hst hopen hrem hpr hoff hdem hcap =>
    intro x y
    unfold State.incMM
    split
    · rename_i hm
      have hc := hcap hm
      show ((if x = o.orderer ∧ y = o.pairId then some (a.getNumMM o.orderer o.pairId + 1) else a.numMM x y)).getD 0 ≤ M
      split
      · simp only [Option.getD_some]; omega
      · exact hb x y
    · exact hb x y
  | finOrder o o' b ho hd hd' hs hrem h hg =>
    intro x y
    unfold State.decMM
    split
    · show ((if x = o'.orderer ∧ y = o'.pairId then (if a.getNumMM o'.orderer o'.pairId ≤ 1 then none else
        some (a.getNumMM o'.orderer o'.pairId - 1)) else a.numMM x y)).getD 0 ≤ M
      have := hb o'.orderer o'.pairId
      split
      · split
        · simp
        · simp only [Option.getD_some]; omega
      · exact hb x y
    · exact hb x y
  | _ => exact hb

theorem mm_reach {M : Nat} (h : Reach s s') (hp : s.params.maxNumMMOrders ≤ M) (hb : MMBound M s) : MMBound M s' := by
  induction h with
  | refl => exact hb
  | tail h1 h ih => exact mm_atom h (by rw [reach_params h1]; exact hp) ih

theorem mm_run {M : Nat} {env : Env} : ∀ {ops : List Op} {s s' : State}, WF s → s.params.maxNumMMOrders ≤ M →
    (∀ p, Op.setParams p ∈ ops → p.maxNumMMOrders ≤ M) → MMBound M s → run env ops s = some s' → MMBound M s' := by
  intro ops
  induction ops with
  | nil => intro s s' _ _ _ hb h; cases h; exact hb
  | cons op ops ih =>
    intro s s' hw hp hops hb h
    simp only [run, Option.bind_eq_some_iff] at h
    obtain ⟨t, h1, h2⟩ := h
    have hops' : ∀ p, Op.setParams p ∈ ops → p.maxNumMMOrders ≤ M := fun p h => hops p (by simp [h])
    rcases step_cases hw h1 with h | ⟨p, rfl, _, rfl⟩ | ⟨a, b, _, rfl⟩
    · exact ih (step_wf hw h1) (by rw [reach_params h]; exact hp) hops' (mm_reach h hp hb) h2
    · exact ih (step_wf hw h1) (hops p (by simp)) hops' hb h2
    · exact ih (step_wf hw h1) hp hops' hb h2

theorem valid_run {env : Env} : ∀ {ops : List Op} {s s' : State}, WF s → s.params.validate = true → run env ops s = some s' →
    s'.params.validate = true := by
  intro ops
  induction ops with
  | nil => intro s s' _ hp h; cases h; exact hp
  | cons op ops ih =>
    intro s s' hw hp h
    simp only [run, Option.bind_eq_some_iff] at h
    obtain ⟨t, h1, h2⟩ := h
    rcases step_cases hw h1 with h | ⟨p, rfl, hv, rfl⟩ | ⟨a, b, _, rfl⟩
    · exact ih (step_wf hw h1) (by rw [reach_params h]; exact hp) h2
    · exact ih (step_wf hw h1) hv h2
    · exact ih (step_wf hw h1) hp h2

/-- The parameters are valid in every reachable state. -/
theorem _root_.Verif.Spec.Reachable.validParams {env : Env} (h : Reachable env s) : s.params.validate = true := by
  obtain ⟨s0, ops, h0, h1⟩ := h
  exact valid_run (genesis_wf h0) h0.params h1

theorem liveMM_spec (s : State) (a p : Nat) : liveMM s.orders a p = unfinishedMM s a p := by
  unfold liveMM unfinishedMM
  rw [List.countP_eq_length_filter]
  congr 1
  apply List.filter_congr
  intro o _
  have h := done_iff o
  by_cases hu : Unfinished o
  · rw [Bool.eq_iff_iff]
    simp [h.2 hu, hu, and_assoc]
  · have : o.done = true := by
      cases e : o.done with
      | false => exact absurd (h.1 e) hu
      | true => rfl
    simp [this, hu]

theorem range_of_sorted : ∀ (n start : Nat) (l : List Nat), l.Pairwise (· < ·) → (∀ x ∈ l, start ≤ x ∧ x < start + n) →
    (∀ i, start ≤ i → i < start + n → i ∈ l) → l = List.range' start n := by
  intro n start l h1 h2 h3
  have hp : l.Perm (List.range' start n) := by
    rw [List.perm_ext_iff_of_nodup]
    · intro a
      rw [List.mem_range'_1]
      exact ⟨h2 a, fun h => h3 a h.1 h.2⟩
    · exact h1.imp (fun h => Nat.ne_of_lt h)
    · exact List.nodup_range'
  exact hp.eq_of_pairwise (le := (· < ·)) (by intro a b _ _ h h'; omega) h1 (List.pairwise_lt_range')

theorem WF.pair_range (hw : WF s) : s.pairs.map (·.id) = List.range' 1 s.lastPairId := by
  refine range_of_sorted _ _ _ ?_ ?_ ?_
  · rw [List.pairwise_map]
    refine hw.pairsS.imp ?_
    intro a b h
    rw [keyLt_iff] at h
    simp only [Pair.key] at h
    omega
  · intro x hx
    obtain ⟨p, hp, rfl⟩ := List.mem_map.1 hx
    have := hw.pairIds p hp
    omega
  · intro i h1 h2
    obtain ⟨p, hp, rfl⟩ := hw.pairAll i h1 (by omega)
    exact List.mem_map_of_mem hp

theorem WF.pool_range (hw : WF s) : s.pools.map (·.id) = List.range' 1 s.lastPoolId := by
  refine range_of_sorted _ _ _ ?_ ?_ ?_
  · rw [List.pairwise_map]
    refine hw.poolsS.imp ?_
    intro a b h
    rw [keyLt_iff] at h
    simp only [PoolRec.key] at h
    omega
  · intro x hx
    obtain ⟨p, hp, rfl⟩ := List.mem_map.1 hx
    have := hw.poolIds p hp
    omega
  · intro i h1 h2
    obtain ⟨p, hp, rfl⟩ := hw.poolAll i h1 (by omega)
    exact List.mem_map_of_mem hp

theorem deposit_accepted (hw : WF s) {m : MsgDeposit} (h : depositMsg m s = some s') : ∃ p r, DepositAccepted m p r s s' := by
  unfold depositMsg at h
  split at h
  · cases h
  · rename_i pool hpool
    obtain ⟨hp, hid⟩ := hw.getPool_iff.1 hpool
    split at h
    · cases h
    · rename_i hdis
      split at h
      · cases h
      · split at h
        · cases h
        · split at h
          · cases h
          · split at h
            · cases h
            · split at h
              · cases h
              · split at h
                · cases h
                · rename_i b hb
                  simp only at h
                  have h := Option.some.inj h
                  subst h
                  have hnew : ∀ x ∈ s.deposits, x.poolId = pool.id → x.id < pool.lastDepositId + 1 := by
                    intro x hx e
                    obtain ⟨_, ⟨q, hq, e1, e2⟩, _⟩ := hw.deps x hx
                    have := hw.key_pool hq hp (by rw [e1, e])
                    subst this
                    omega
                  refine ⟨pool, _, ⟨⟨hp, hid, by simpa using hdis⟩, rfl, hnew, ?_, ?_, (send_some hb).2.2.2, (send_some hb).2.2.1,
                    ⟨rfl, rfl, rfl, rfl, rfl, rfl, rfl, rfl, rfl⟩⟩⟩
                  · intro x
                    show x ∈ upsert DepReq.key _ s.deposits ↔ _
                    rw [hw.depsS.mem_upsert]
                    constructor
                    · rintro (e | ⟨e, _⟩)
                      · exact Or.inr e
                      · exact Or.inl e
                    · rintro (e | e)
                      · refine Or.inr ⟨e, ?_⟩
                        intro hk
                        simp only [DepReq.key, Prod.mk.injEq] at hk
                        have := hnew x e (by rw [hk.1, hid])
                        omega
                      · exact Or.inl e
                  · intro x
                    exact hw.mem_setPool hp rfl

theorem withdraw_accepted (hw : WF s) {m : MsgWithdraw} (h : withdrawMsg m s = some s') : ∃ p r, WithdrawAccepted m p r s s' := by
  unfold withdrawMsg at h
  split at h
  · cases h
  · rename_i pool hpool
    obtain ⟨hp, hid⟩ := hw.getPool_iff.1 hpool
    split at h
    · cases h
    · rename_i hdis
      split at h
      · cases h
      · rename_i hden
        split at h
        · cases h
        · rename_i b hb
          simp only at h
          have h := Option.some.inj h
          subst h
          have hnew : ∀ x ∈ s.withdraws, x.poolId = pool.id → x.id < pool.lastWithdrawId + 1 := by
            intro x hx e
            obtain ⟨_, ⟨q, hq, e1, e2⟩, _⟩ := hw.wds x hx
            have := hw.key_pool hq hp (by rw [e1, e])
            subst this
            omega
          refine ⟨pool, _, ⟨⟨hp, hid, by simpa using hdis⟩, not_not.1 hden, rfl, hnew, ?_, ?_, (send_some hb).2.2.2, (send_some hb).2.2.1,
            ⟨rfl, rfl, rfl, rfl, rfl, rfl, rfl, rfl, rfl⟩⟩⟩
          · intro x
            show x ∈ upsert WdReq.key _ s.withdraws ↔ _
            rw [hw.wdsS.mem_upsert]
            constructor
            · rintro (e | ⟨e, _⟩)
              · exact Or.inr e
              · exact Or.inl e
            · rintro (e | e)
              · refine Or.inr ⟨e, ?_⟩
                intro hk
                simp only [WdReq.key, Prod.mk.injEq] at hk
                have := hnew x e (by rw [hk.1, hid])
                omega
              · exact Or.inl e
          · intro x
            exact hw.mem_setPool hp rfl

theorem activePools_count (s : State) (pid : Nat) : activePools s pid = s.pools.countP (fun p => decide (p.pairId = pid ∧ p.disabled = false)) := by
  unfold activePools; rw [List.countP_eq_length_filter]

theorem activePools_num (s : State) (pid : Nat) : s.numActivePools pid = activePools s pid := by
  unfold State.numActivePools State.poolsOf activePools
  rw [List.filter_filter]
  congr 1
  apply List.filter_congr
  intro p _
  rw [Bool.eq_iff_iff]
  simp [and_comm]

theorem active_setPool (hw : WF s) {p p' : PoolRec} (hp : p ∈ s.pools) (h1 : p'.id = p.id) (h2 : p'.pairId = p.pairId)
    (h3 : p'.disabled = false → p.disabled = false) (pid : Nat) : activePools (s.setPool p') pid ≤ activePools s pid := by
  rw [activePools_count, activePools_count]
  have := countP_upsert_old hw.poolsS p' p (fun p => decide (p.pairId = pid ∧ p.disabled = false)) hp (PoolRec.key_iff.2 h1)
  show (upsert PoolRec.key p' s.pools).countP _ ≤ _
  rw [h2] at this
  by_cases e : p'.disabled = false
  · have := h3 e
    simp_all
  · simp_all
    omega

theorem active_atom {a b : State} {M : Nat} (hw : WF a) (h : Atom a b) (hp : a.params.maxNumActivePools ≤ M)
    (hb : ∀ pid, activePools a pid ≤ M) : ∀ pid, activePools b pid ≤ M := by
  have key : ∀ {p p' : PoolRec}, p ∈ a.pools → p'.id = p.id → p'.pairId = p.pairId → (p'.disabled = false → p.disabled = false) →
      ∀ pid, activePools (a.setPool p') pid ≤ M := fun h1 h2 h3 h4 pid => le_trans (active_setPool hw h1 h2 h3 h4 pid) (hb pid)
  cases h with
  | newPool pair creator range amt b hp' hbb hcap ha hm =>
    intro pid
    rw [activePools_num] at hcap
    have hn : ∀ x ∈ a.pools, x.key ≠ (newPool (a.lastPoolId + 1) pair.id creator range).key := by
      intro x hx e
      have := (hw.poolIds x hx).2.1
      have := PoolRec.key_iff.1 e
      simp only [newPool] at this
      omega
    have := countP_upsert_new hw.poolsS _ (fun p => decide (p.pairId = pid ∧ p.disabled = false)) hn
    rw [activePools_count]
    show (upsert PoolRec.key _ a.pools).countP _ ≤ _
    rw [this, ← activePools_count]
    by_cases e : pair.id = pid
    · subst e
      simp only [newPool]
      simp
      omega
    · have := hb pid
      simp only [newPool]
      simp [e]
      omega
  | disablePool pool hp => exact key hp rfl rfl (fun e => by simp at e)
  | burn pool amt b hp ha hm =>
    split
    · exact key hp rfl rfl (fun e => by simp at e)
    · exact hb
  | newDeposit pool r b hp ha h hb' hid hpid hacc hst hpos hnd hh => exact key hp rfl rfl (fun e => e)
  | newWithdraw pool r b hp ha h hb' hid hpid hst hden hpos hh => exact key hp rfl rfl (fun e => e)
  | newOrder pair o b hp h hg hid hpid hbid hst hopen hrem hpr hoff hdem hcap =>
    intro pid
    unfold activePools
    rw [(incMM_orders _ _).2.2.2.2.2.1]
    exact hb pid
  | finOrder o o' b ho hd hd' hs hrem h hg =>
    intro pid
    unfold activePools
    rw [(decMM_orders _ _).2.2.2.2.2.1]
    exact hb pid
  | _ => exact hb

theorem active_reach {M : Nat} (hw : WF s) (h : Reach s s') (hp : s.params.maxNumActivePools ≤ M)
    (hb : ∀ pid, activePools s pid ≤ M) : ∀ pid, activePools s' pid ≤ M := by
  induction h with
  | refl => exact hb
  | tail h1 h ih => exact active_atom (reach_wf hw h1) h (by rw [reach_params h1]; exact hp) ih

theorem active_run {M : Nat} {env : Env} : ∀ {ops : List Op} {s s' : State}, WF s → s.params.maxNumActivePools ≤ M →
    (∀ p, Op.setParams p ∈ ops → p.maxNumActivePools ≤ M) → (∀ pid, activePools s pid ≤ M) → run env ops s = some s' →
    ∀ pid, activePools s' pid ≤ M := by
  intro ops
  induction ops with
  | nil => intro s s' _ _ _ hb h; cases h; exact hb
  | cons op ops ih =>
    intro s s' hw hp hops hb h
    simp only [run, Option.bind_eq_some_iff] at h
    obtain ⟨t, h1, h2⟩ := h
    have hops' : ∀ p, Op.setParams p ∈ ops → p.maxNumActivePools ≤ M := fun p h => hops p (by simp [h])
    rcases step_cases hw h1 with h | ⟨p, rfl, _, rfl⟩ | ⟨a, b, _, rfl⟩
    · exact ih (step_wf hw h1) (by rw [reach_params h]; exact hp) hops' (active_reach hw h hp hb) h2
    · exact ih (step_wf hw h1) (hops p (by simp)) hops' hb h2
    · exact ih (step_wf hw h1) hp hops' hb h2

theorem pool_created (hw : WF s) {pair : Pair} {creator : Nat} {range : Option (Int × Int)} {coins : Coins} {amt : Int} {b : Bank}
    (hp : pair ∈ s.pairs) (hcap : s.numActivePools pair.id < s.params.maxNumActivePools) (ha : 0 < amt)
    (hmin : s.params.minInitialPoolCoinSupply ≤ amt)
    (h : createPoolBank ({ s with lastPoolId := s.lastPoolId + 1 }.setPool (newPool (s.lastPoolId + 1) pair.id creator range))
      creator (s.lastPoolId + 1) coins amt = some b) :
    PoolCreated pair.id creator range coins amt s
      { ({ s with lastPoolId := s.lastPoolId + 1 }.setPool (newPool (s.lastPoolId + 1) pair.id creator range)) with bank := b } := by
  unfold createPoolBank at h
  simp only [Option.bind_eq_some_iff] at h
  obtain ⟨b1, h1, b2, h2, b3, h3, h4⟩ := h
  have e1 : s.bank.send (.user creator) (.poolReserve (s.lastPoolId + 1)) coins = some b1 := h1
  have e2 : b1.send (.user creator) s.params.feeCollector s.params.poolCreationFee = some b2 := h2
  refine ⟨⟨pair, hp, rfl⟩, by rw [← activePools_num]; exact hcap, rfl, ?_, ⟨ha, hmin⟩, ?_, hw.noSupply _ (by omega), ?_,
    ⟨rfl, rfl, rfl, rfl, rfl, rfl, rfl, rfl, rfl⟩⟩
  · intro x
    show x ∈ upsert PoolRec.key _ s.pools ↔ _
    rw [hw.poolsS.mem_upsert]
    constructor
    · rintro (e | ⟨e, _⟩)
      · exact Or.inr e
      · exact Or.inl e
    · rintro (e | e)
      · refine Or.inr ⟨e, ?_⟩
        intro hk
        have := (hw.poolIds x e).2.1
        have := PoolRec.key_iff.1 hk
        simp only [newPool] at this
        omega
      · exact Or.inl e
  · intro d
    show b.supply d = _
    rw [(send_some h4).2.2.1]
    unfold Bank.mint at h3
    split at h3
    · have h3 := Option.some.inj h3
      subst h3
      show b2.supply d + _ = _
      rw [(send_some e2).2.2.1, (send_some e1).2.2.1]
    · cases h3
  · intro a d
    show b.bal a d = _
    rw [(send_some h4).2.2.2]
    unfold Bank.mint at h3
    split at h3
    · have h3 := Option.some.inj h3
      subst h3
      show b2.bal a d + _ + _ = _
      rw [(send_some e2).2.2.2, (send_some e1).2.2.2]
      simp only [transferEffect, amountOf_single]
      by_cases c2 : d = .pool (s.lastPoolId + 1)
      · subst c2
        by_cases c1 : a = .dexModule
        · subst c1; simp
        · simp [c1]
      · have c2' : ¬ (Denom.pool (s.lastPoolId + 1) = d) := fun e => c2 e.symm
        simp [c2, c2']
    · cases h3

theorem createPool_created (hw : WF s) {m : MsgCreatePool} (h : createPool m s = some s') :
    ∃ pair ∈ s.pairs, pair.id = m.pairId ∧ coinsInPair pair m.coins = true ∧
      (∀ p ∈ s.pools, p.pairId = pair.id → p.range = none → p.disabled = true) ∧
      ∃ ap, createBasicPool (amountOf m.coins pair.quote) (amountOf m.coins pair.base) = some ap ∧
        PoolCreated pair.id m.creator none m.coins (max ap.ps s.params.minInitialPoolCoinSupply) s s' := by
  unfold createPool at h
  split at h
  · cases h
  · rename_i pair hv
    obtain ⟨v1, v2, v3, v4, v5⟩ := validateCreatePool_some hv
    split at h
    · cases h
    · rename_i ap hap
      simp only at h
      split at h
      · cases h
      · rename_i b hb
        have h := Option.some.inj h
        subst h
        refine ⟨pair, (hw.getPair_iff.1 v1).1, (hw.getPair_iff.1 v1).2, v2, v4, ap, hap, ?_⟩
        refine pool_created hw (hw.getPair_iff.1 v1).1 v5 ?_ (le_max_right _ _) hb
        have : 0 < ap.ps := by
          unfold createBasicPool at hap
          split at hap
          · cases hap
          · simp only at hap
            split at hap
            · cases hap
            · split at hap
              · cases hap
              · have hap := Option.some.inj hap
                rw [← hap]
                exact supply_pos _ _
        exact lt_of_lt_of_le this (le_max_left _ _)

theorem createRanged_created (hw : WF s) {env : Env} {m : MsgCreateRangedPool} (h : createRangedPoolMsg env m s = some s') :
    ∃ pair ∈ s.pairs, pair.id = m.pairId ∧ coinsInPair pair m.coins = true ∧
      priceToDownTick? m.minPrice s.params.tickPrec = some m.minPrice ∧
      priceToDownTick? m.maxPrice s.params.tickPrec = some m.maxPrice ∧
      priceToDownTick? m.initialPrice s.params.tickPrec = some m.initialPrice ∧
      ∃ ap, createRangedPool env.sqrt (amountOf m.coins pair.quote) (amountOf m.coins pair.base) m.minPrice m.maxPrice m.initialPrice = .ok ap ∧
        ¬ (ap.rx < s.params.minInitialDepositAmount ∧ ap.ry < s.params.minInitialDepositAmount) ∧
        PoolCreated pair.id m.creator (some (m.minPrice, m.maxPrice)) [⟨pair.quote, ap.rx⟩, ⟨pair.base, ap.ry⟩]
          (max ap.ps s.params.minInitialPoolCoinSupply) s s' := by
  unfold createRangedPoolMsg at h
  split at h
  · cases h
  · rename_i pair hv
    obtain ⟨v1, v2, v5, v6, v7, v8⟩ := validateCreateRangedPool_some hv
    split at h
    · cases h
    · cases h
    · rename_i ap hap
      simp only at h
      split at h
      · cases h
      · rename_i hmin
        split at h
        · cases h
        · rename_i b hb
          have h := Option.some.inj h
          subst h
          refine ⟨pair, (hw.getPair_iff.1 v1).1, (hw.getPair_iff.1 v1).2, v2, v6, v7, v8, ap, hap, hmin, ?_⟩
          exact pool_created hw (hw.getPair_iff.1 v1).1 v5 (lt_of_lt_of_le (createRangedPool_ps hap) (le_max_left _ _)) (le_max_right _ _) hb

end Verif.Dex

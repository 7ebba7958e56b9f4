import Verif.Proofs.Genesis
import Verif.Proofs.Trading
/-! # The exported genesis of a sane chain is valid, up to three known exceptions (C47) -/
namespace Verif.Dex
open Verif Verif.Amm Verif.Spec
variable {s s' t : State}

/-- Outcome coins: none, or two entries of different denoms, of non-negative amounts. -/
def TwoCoins (cs : Coins) : Prop := cs = [] ∨ ∃ q b x y, q ≠ b ∧ cs = [⟨q, x⟩, ⟨b, y⟩] ∧ 0 ≤ x ∧ 0 ≤ y

/-- The parts of a deposit request that genesis validation looks at and that `WF` does not describe. -/
def DepShape (r : DepReq) : Prop :=
  (r.coins.length ≠ 0 ∧ r.coins.length ≤ 2) ∧ TwoCoins r.accepted ∧
    (∀ d, amountOf r.accepted d ≤ amountOf r.coins d) ∧ 0 ≤ r.minted

structure Shapes (s : State) : Prop where
  deps : ∀ r ∈ s.deposits, DepShape r
  wds : ∀ r ∈ s.withdraws, TwoCoins r.withdrawn

theorem mem_upsert_weak {α : Type} {key : α → Key} {v x : α} : ∀ {l : List α}, x ∈ upsert key v l → x = v ∨ x ∈ l := by
  intro l
  induction l with
  | nil => intro h; simpa [upsert] using h
  | cons a l ih =>
    intro h
    unfold upsert at h
    split_ifs at h
    · rcases List.mem_cons.1 h with h | h
      · exact Or.inl h
      · exact Or.inr (by simp [h])
    · rcases List.mem_cons.1 h with h | h
      · exact Or.inl h
      · exact Or.inr h
    · rcases List.mem_cons.1 h with h | h
      · exact Or.inr (by simp [h])
      · rcases ih h with h | h
        · exact Or.inl h
        · exact Or.inr (by simp [h])

theorem depositPass_shapes (hw : WF s) {env : Env} {r : DepReq} (hr : r ∈ s.deposits) (hs : Shapes s)
    (h : depositPass env r s = some s') : Shapes s' := by
  unfold depositPass at h
  by_cases hst : r.status = .notExecuted
  · rw [if_pos hst] at h
    obtain ⟨pool, pair, p1, p2, q1, q2, hcase⟩ := executeDeposit_spec hw hr hst h
    have hne := (hw.pairNe pair q1).1
    rcases hcase with ⟨t, b, ht, rfl, hb, hbal⟩ | ⟨hdis, ax, ay, pc, b1, b, hpos, hdep, x1, x2, y1, y2, rfl, hm, hb, hbal⟩
    · have hd : t.deposits = s.deposits := by rcases ht with rfl | rfl <;> rfl
      have hwd : t.withdraws = s.withdraws := by rcases ht with rfl | rfl <;> rfl
      refine ⟨fun x hx => ?_, fun x hx => hs.wds x (hwd ▸ hx)⟩
      rcases mem_upsert_weak hx with rfl | hx
      · exact hs.deps r hr
      · exact hs.deps x (hd ▸ hx)
    · refine ⟨fun x hx => ?_, fun x hx => hs.wds x hx⟩
      rcases mem_upsert_weak hx with rfl | hx
      · refine ⟨(hs.deps r hr).1, Or.inr ⟨_, _, _, _, hne.symm, rfl, x1, y1⟩, ?_, le_of_lt hpos⟩
        intro d
        show amountOf [⟨pair.quote, ax⟩, ⟨pair.base, ay⟩] d ≤ amountOf r.coins d
        have h0 : 0 ≤ amountOf r.coins d := amountOf_nonneg (fun c hc => le_of_lt ((hw.deps r hr).2.2.1 c hc)) d
        simp only [amountOf_cons, amountOf_nil]
        by_cases e1 : pair.quote = d
        · subst e1
          rw [if_pos rfl, if_neg hne]; omega
        · rw [if_neg e1]
          by_cases e2 : pair.base = d
          · subst e2; rw [if_pos rfl]; omega
          · rw [if_neg e2]; omega
      · exact hs.deps x hx
  · rw [if_neg hst] at h
    cases h; exact hs

theorem withdrawPass_shapes (hw : WF s) {env : Env} {r : WdReq} (hr : r ∈ s.withdraws) (hs : Shapes s)
    (h : withdrawPass env r s = some s') : Shapes s' := by
  unfold withdrawPass at h
  by_cases hst : r.status = .notExecuted
  · rw [if_pos hst] at h
    obtain ⟨pool, pair, p1, p2, q1, q2, hcase⟩ := executeWithdraw_spec hw hr hst h
    have hne := (hw.pairNe pair q1).1
    rcases hcase with ⟨t, b, ht, rfl, hb, hbal⟩ | ⟨hdis, x, y, b1, b2, hxy, hwd, hx, hy, hb, hbal, hburn, rfl⟩
    · have hd : t.deposits = s.deposits := by rcases ht with rfl | rfl <;> rfl
      have hwd : t.withdraws = s.withdraws := by rcases ht with rfl | rfl <;> rfl
      refine ⟨fun x hx => hs.deps x (hd ▸ hx), fun x hx => ?_⟩
      rcases mem_upsert_weak hx with rfl | hx
      · exact hs.wds r hr
      · exact hs.wds x (hwd ▸ hx)
    · refine ⟨fun z hz => hs.deps z (by split at hz <;> exact hz), fun z hz => ?_⟩
      rcases mem_upsert_weak hz with rfl | hz
      · exact Or.inr ⟨_, _, _, _, hne.symm, rfl, hx, hy⟩
      · exact hs.wds z (by split at hz <;> exact hz)
  · rw [if_neg hst] at h
    cases h; exact hs

theorem endBlock_shapes (hw : WF s) {env : Env} (hs : Shapes s) (h : endBlock env s = some s') : Shapes s' := by
  unfold endBlock at h
  split at h
  · cases h
  · split at h
    · unfold executeRequests at h
      split at h
      · cases h
      · rename_i s1 h1
        have m1 := matching_all hw h1
        split at h
        · cases h
        · rename_i s2 h2
          have m2 := expire_all m1.wf h2
          have hs2 : Shapes s2 := ⟨fun r hr => hs.deps r (by rw [m2.frame.deposits, m1.deposits] at hr; exact hr),
            fun r hr => hs.wds r (by rw [m2.frame.withdraws, m1.withdraws] at hr; exact hr)⟩
          split at h
          · cases h
          · rename_i s3 h3
            have m3 := forEach_inv (f := depositPass env) (fun xs t => Depositing s2 xs t ∧ Shapes t) (by
              rintro x xs t t' ⟨k1, k2⟩ e
              exact ⟨deposit_step k1 e, depositPass_shapes k1.wf (k1.pending x (by simp)) k2 e⟩) _ _ _
              ⟨⟨m2.wf, Relation.ReflTransGen.refl, m2.wf.depsS.nodup, fun x hx => hx, rfl, rfl, PassFrame.refl s2, fun r hr => Or.inl hr⟩, hs2⟩ h3
            have m4 := forEach_inv (f := withdrawPass env) (fun xs t => Withdrawing s3 xs t ∧ Shapes t) (by
              rintro x xs t t' ⟨k1, k2⟩ e
              exact ⟨withdraw_step k1 e, withdrawPass_shapes k1.wf (k1.pending x (by simp)) k2 e⟩) _ _ _
              ⟨⟨m3.1.wf, Relation.ReflTransGen.refl, m3.1.wf.wdsS.nodup, fun x hx => hx, rfl, rfl, PassFrame.refl s3, fun r hr => Or.inl hr⟩, m3.2⟩ h
            exact m4.2
    · cases h; exact hs

theorem shapes_step (hw : WF s) {env : Env} {op : Op} (hs : Shapes s) (h : step env op s = some s') : Shapes s' := by
  by_cases h2 : op = .endBlock
  · subst h2; exact endBlock_shapes hw hs h
  · by_cases h1 : ∃ a b, op = .beginBlock a b
    · obtain ⟨a, b, rfl⟩ := h1
      cases h
      exact ⟨fun r hr => hs.deps r (List.mem_filter.1 hr).1, fun r hr => hs.wds r (List.mem_filter.1 hr).1⟩
    · by_cases h3 : ∃ m, op = .deposit m
      · obtain ⟨m, rfl⟩ := h3
        have hE := step_effect hw (by push Not at h1; exact h1) h2 h
        rcases tx_cases (valid := m.validateBasic) (handler := depositMsg m) (s := s) with e | ⟨hv, e⟩
        · have : s' = s := by rw [← Option.some.inj h]; exact e
          subst this; exact hs
        · clear h
          cases hE with
          | same _ h => subst h; exact hs
          | cancel _ hop => simp at hop
          | order _ hop => simp at hop
          | deposit m p r h =>
            refine ⟨fun x hx => ?_, h.rest.2.2.2.2.1 ▸ hs.wds⟩
            rcases (h.deposits x).1 hx with hx | rfl
            · exact hs.deps x hx
            · rw [h.request]
              unfold MsgDeposit.validateBasic at hv
              have hl : ¬ (m.coins.length = 0 ∨ m.coins.length > 2) := by
                intro hc
                rw [if_pos hc] at hv
                split_ifs at hv
              have hp : coinsValid m.coins = true := by
                by_contra hc
                simp [hc] at hv
              refine ⟨⟨by show m.coins.length ≠ 0; omega, by show m.coins.length ≤ 2; omega⟩, Or.inl rfl, fun d => ?_, le_refl _⟩
              unfold coinsValid at hp
              simp only [Bool.and_eq_true, List.all_eq_true, decide_eq_true_eq] at hp
              exact amountOf_nonneg (fun c hc => le_of_lt (hp.1 c hc)) d
      · have hE := step_effect hw (by push Not at h1; exact h1) h2 h
        clear h
        cases hE with
        | same _ h => subst h; exact hs
        | pair m b hb h => subst h; exact ⟨hs.deps, hs.wds⟩
        | pool m pr cs mt h => exact ⟨h.rest.2.2.2.1 ▸ hs.deps, h.rest.2.2.2.2.1 ▸ hs.wds⟩
        | ranged m pr cs mt h => exact ⟨h.rest.2.2.2.1 ▸ hs.deps, h.rest.2.2.2.2.1 ▸ hs.wds⟩
        | deposit m p r h => exact absurd ⟨m, rfl⟩ h3
        | withdraw m p r h =>
          refine ⟨h.rest.2.2.2.2.1 ▸ hs.deps, fun x hx => ?_⟩
          rcases (h.withdraws x).1 hx with hx | rfl
          · exact hs.wds x hx
          · rw [h.request]; exact Or.inl rfl
        | order _ hop p x h hpos => exact ⟨h.rest.deposits ▸ hs.deps, h.rest.withdraws ▸ hs.wds⟩
        | cancel _ hop hf h ho2 hl => exact ⟨hf.deposits ▸ hs.deps, hf.withdraws ▸ hs.wds⟩
        | transfer src dst cs b hb h => subst h; exact ⟨hs.deps, hs.wds⟩
        | params p hv h => subst h; exact ⟨hs.deps, hs.wds⟩

theorem shapes_of_chain {env : Env} (h : SaneChain env s) : Shapes s := by
  induction h with
  | @genesis s h => exact ⟨by rw [h.deposits]; simp, by rw [h.withdraws]; simp⟩
  | @step s s' hc op hs e ih => exact shapes_step (sane_of_chain hc).reach.wf ih e

theorem TwoCoins.valid {cs : Coins} (h : TwoCoins cs) : coinsValid (nonzeroCoins cs) = true ∧ (nonzeroCoins cs).length ≤ 2 := by
  rcases h with rfl | ⟨q, b, x, y, hne, rfl, hx, hy⟩
  · simp [nonzeroCoins, coinsValid]
  · unfold nonzeroCoins coinsValid
    by_cases h1 : x = 0 <;> by_cases h2 : y = 0 <;> simp [h1, h2, hne] <;> omega

theorem lookup_pair (hw : WF s) {p : Pair} (hp : p ∈ s.pairs) : lookup Pair.key (p.id, 0) s.pairs = some p := hw.pairsS.lookup_self hp
theorem lookup_pool (hw : WF s) {p : PoolRec} (hp : p ∈ s.pools) : lookup PoolRec.key (p.id, 0) s.pools = some p := hw.poolsS.lookup_self hp

theorem nonzero_mem {cs cs' : Coins} (h2 : TwoCoins cs) (hle : ∀ d, amountOf cs d ≤ amountOf cs' d) :
    ∀ c ∈ nonzeroCoins cs, amountOf cs' c.denom ≠ 0 := by
  intro c hc
  obtain ⟨h1, h3⟩ := List.mem_filter.1 hc
  rcases h2 with rfl | ⟨q, b, x, y, hne, rfl, hx, hy⟩
  · cases h1
  · have hc0 : c.amt ≠ 0 := by simpa using h3
    have hl := hle c.denom
    simp only [amountOf_cons, amountOf_nil] at hl
    simp only [List.mem_cons, List.not_mem_nil, or_false] at h1
    rcases h1 with rfl | rfl
    · simp only [ite_true, if_neg hne.symm] at hl hc0 ⊢; omega
    · simp only [ite_true, if_neg hne] at hl hc0 ⊢; omega

theorem export_valid_iff {env : Env} (hc : SaneChain env s) {recs : List NumMMRecord} (hr : ListsCounters s recs) :
    (exportGenesis s recs).validate = true ↔ Exportable s := by
  have S := sane_of_chain hc
  have hw := S.reach.wf
  have hsh := shapes_of_chain hc
  have hpair : ∀ p ∈ s.pairs, (p.valid && decide (p.id ≤ s.lastPairId)) = true := by
    intro p hp
    have h1 := hw.pairIds p hp
    have h2 := hw.pairNe p hp
    unfold Pair.valid
    have h3 := S.prices p hp
    cases hl : p.lastPrice with
    | none => simp; omega
    | some lp => simp [h3 lp hl]; omega
  have hpool : ∀ p ∈ s.pools, (p.valid && decide (p.id ≤ s.lastPoolId) && (lookup Pair.key (p.pairId, 0) s.pairs).isSome) = true := by
    intro p hp
    obtain ⟨h1, h2, q, hq, e⟩ := hw.poolIds p hp
    have h3 := hw.pairIds q hq
    rw [← e, lookup_pair hw hq]
    unfold PoolRec.valid
    simp; omega
  have hnum : recs.all (fun r => r.num != 0) = true := by
    rw [List.all_eq_true]
    intro r hr'
    have := (hr.2 r).1 hr'
    rw [hw.mm] at this
    split at this
    · cases this
    · rename_i hne
      have e := Option.some.inj this
      simp; omega
  have hdep : ∀ r ∈ s.deposits, (exportGenesis s recs).depositOk r = true ↔ r.msgHeight ≠ 0 ∧
      ∀ pool ∈ s.pools, pool.id = r.poolId → ∀ pair ∈ s.pairs, pair.id = pool.pairId →
        amountOf r.coins pair.base ≠ 0 ∧ amountOf r.coins pair.quote ≠ 0 := by
    intro r hr'
    obtain ⟨h1, ⟨p, hp, e, h2⟩, h3, h4, h5⟩ := hw.deps r hr'
    obtain ⟨⟨g1, g2⟩, g3, g4, g5⟩ := hsh.deps r hr'
    obtain ⟨k1, k2, q, hq, k3⟩ := hw.poolIds p hp
    unfold GenesisState.depositOk
    show (r.valid && match lookup PoolRec.key (r.poolId, 0) s.pools with | none => false | some pool => _) = true ↔ _
    rw [← e, lookup_pool hw hp]
    show (r.valid && match lookup Pair.key (p.pairId, 0) s.pairs with | none => false | some pool => _) = true ↔ _
    rw [← k3, lookup_pair hw hq]
    have hv : r.valid = (r.msgHeight != 0) := by
      unfold DepReq.valid
      have a1 : coinsValid r.coins = true := by
        unfold coinsValid
        simp only [Bool.and_eq_true, List.all_eq_true, decide_eq_true_eq]
        exact ⟨h3, h4⟩
      have a2 : (nonzeroCoins r.accepted).all (fun c => amountOf r.coins c.denom != 0) = true := by
        rw [List.all_eq_true]
        intro c hc'
        simpa using nonzero_mem g3 g4 c hc'
      have b1 : (r.id != 0) = true := by simp; omega
      have b2 : (r.poolId != 0) = true := by simp; omega
      rw [a1, a2, g3.valid.1, b1, b2]
      simp [g1, g2, g3.valid.2, g5]
    rw [hv]
    simp only [Bool.and_eq_true, bne_iff_ne]
    constructor
    · rintro ⟨f1, f2, f3⟩
      refine ⟨f1, fun pool hpool e1 pair hpair' e2 => ?_⟩
      have hx : pool = p := hw.key_pool hpool hp e1
      subst hx
      have hy : pair = q := hw.key_pair hpair' hq (e2.trans k3.symm)
      subst hy
      exact ⟨f2, f3⟩
    · rintro ⟨f1, f2⟩
      exact ⟨f1, f2 p hp rfl q hq k3⟩
  have hwd : ∀ r ∈ s.withdraws, (exportGenesis s recs).withdrawOk r = true ↔ r.msgHeight ≠ 0 := by
    intro r hr'
    obtain ⟨h1, ⟨p, hp, e, h2⟩, h3, h4⟩ := hw.wds r hr'
    have g := hsh.wds r hr'
    have k1 := hw.poolIds p hp
    unfold GenesisState.withdrawOk
    show (r.valid && match lookup PoolRec.key (r.poolId, 0) s.pools with | none => false | some pool => _) = true ↔ _
    rw [← e, lookup_pool hw hp]
    have hv : r.valid = (r.msgHeight != 0) := by
      unfold WdReq.valid
      have b1 : (r.id != 0) = true := by simp; omega
      have b2 : (r.poolId != 0) = true := by simp; omega
      have b3 : (r.coin.amt != 0) = true := by simp; omega
      rw [g.valid.1, b1, b2, b3]
      simp [g.valid.2, le_of_lt h3]
    simp [hv, h4, e]
  have hord : ∀ o ∈ s.orders, (exportGenesis s recs).orderOk o = true ↔ o.msgHeight ≠ 0 ∧ o.expireAt ≠ zeroTime := by
    intro o ho
    obtain ⟨h1, h2, p, hp, e, h3, h4, h5⟩ := hw.ords o ho
    obtain ⟨g1, g2, p', hp', e', g3, g4⟩ := hw.ordsOk o ho
    have hx : p' = p := hw.key_pair hp' hp (e'.trans e.symm)
    subst hx
    have E := S.orders o ho
    have hpi := hw.pairIds p' hp
    unfold GenesisState.orderOk
    show (o.valid && match lookup Pair.key (o.pairId, 0) s.pairs with | none => false | some pool => _) = true ↔ _
    rw [← e, lookup_pair hw hp]
    have hoff : 0 < o.offer := by
      have := E.offer
      have h0 := E.amount
      have hP := E.price
      unfold NeededOffer at this
      split at this
      · have := mul_pos hP h0
        omega
      · omega
    have hrec : 0 ≤ o.received := by
      obtain ⟨l, hl⟩ := E.trades
      have := total_nonneg' (fun f hf => gain_nonneg (d := o.dir) (hl.each f hf).2.1 (hl.each f hf).1)
      have := hl.received
      simp only at this
      omega
    have hv : o.valid = (o.msgHeight != 0 && o.expireAt != zeroTime) := by
      unfold OrderRec.valid
      have b1 : (o.id != 0) = true := by simp; omega
      have b2 : (o.pairId != 0) = true := by simp; omega
      have b3 : (o.offer != 0) = true := by simp; omega
      have b4 : (o.batchId != 0) = true := by simp; omega
      rw [b1, b2, b3, b4]
      simp [le_of_lt hoff, g1, hrec, g2, E.amount, E.opened]
    simp [hv, h4, g3, g4]
  unfold GenesisState.validate
  have n1 : (s.pairs.map Pair.key).Nodup := hw.pairsS.keys_nodup
  have n2 : (s.pools.map PoolRec.key).Nodup := hw.poolsS.keys_nodup
  have n3 : (s.deposits.map DepReq.key).Nodup := hw.depsS.keys_nodup
  have n4 : (s.withdraws.map WdReq.key).Nodup := hw.wdsS.keys_nodup
  have n5 : (s.orders.map OrderRec.key).Nodup := hw.ordersS.keys_nodup
  show (s.params.validate && s.pairs.all _ && decide _ && s.pools.all _ && decide _ && s.deposits.all _ && decide _ &&
    s.withdraws.all _ && decide _ && s.orders.all _ && decide _ && recs.all _) = true ↔ _
  simp only [Bool.and_eq_true, decide_eq_true_eq]
  constructor
  · rintro ⟨⟨⟨⟨⟨⟨⟨⟨⟨⟨⟨_, _⟩, _⟩, _⟩, _⟩, d⟩, _⟩, w⟩, _⟩, o⟩, _⟩, _⟩
    have d' := fun r hr => (hdep r hr).1 (List.all_eq_true.1 d r hr)
    have w' := fun r hr => (hwd r hr).1 (List.all_eq_true.1 w r hr)
    have o' := fun r hr => (hord r hr).1 (List.all_eq_true.1 o r hr)
    exact ⟨fun r hr => (d' r hr).1, w', fun r hr => (o' r hr).1, fun r hr => (o' r hr).2, fun r hr => (d' r hr).2⟩
  · intro h
    exact ⟨⟨⟨⟨⟨⟨⟨⟨⟨⟨⟨S.reach.validParams, List.all_eq_true.2 hpair⟩, n1⟩, List.all_eq_true.2 hpool⟩, n2⟩,
      List.all_eq_true.2 fun r hr => (hdep r hr).2 ⟨h.depHeight r hr, h.bothCoins r hr⟩⟩, n3⟩,
      List.all_eq_true.2 fun r hr => (hwd r hr).2 (h.wdHeight r hr)⟩, n4⟩,
      List.all_eq_true.2 fun r hr => (hord r hr).2 ⟨h.orderHeight r hr, h.expire r hr⟩⟩, n5⟩, hnum⟩

end Verif.Dex

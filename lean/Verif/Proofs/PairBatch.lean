import Verif.Proofs.Escrow
import Verif.Proofs.Stay
import Verif.Proofs.OneSide
import Verif.Proofs.BatchPrefix
import Verif.Spec.Batch
/-! # The exact effect of a batch on one pair -/
namespace Verif.Dex
open Verif Verif.Amm Verif.Spec

variable {s s' : State}

/-- The record of an order to which a result was applied. -/
def OrderRec.settle (r : OrderRec) (y : Order) : OrderRec :=
  { r.fill y with status := if (r.fill y).openAmt = 0 then .completed else .partiallyMatched }

/-- Every result has been applied, and nothing else. -/
structure AppliedAll (pid : Nat) (s0 : State) (ys : List Order) (t : State) : Prop where
  done : ∀ y ∈ ys, y.isMatched = true → ∀ r ∈ s0.orders, r.pairId = pid → userId y = some r.id → r.settle y ∈ t.orders
  idle : ∀ r ∈ s0.orders, (r.pairId = pid → ∀ y ∈ ys, y.isMatched = true → userId y ≠ some r.id) → r ∈ t.orders

theorem applied_step {pair : Pair} {s0 : State} {ys xs : List Order} {x : Order} {st st' : ApplyState}
    (h : Applying pair.id s0 ys (x :: xs) st) (hA : AppliedAll pair.id s0 ys st.s) (e : applyOrder pair x st = some st') :
    AppliedAll pair.id s0 (ys ++ [x]) st'.s := by
  have hskip : (x.isMatched = true → userId x = none) → AppliedAll pair.id s0 (ys ++ [x]) st.s := by
    intro hx
    refine ⟨?_, ?_⟩
    · intro y hy hm r hr hp hu
      rcases List.mem_append.1 hy with hy | hy
      · exact hA.done y hy hm r hr hp hu
      · rw [List.mem_singleton] at hy
        subst hy
        rw [hx hm] at hu; cases hu
    · intro r hr hn
      exact hA.idle r hr (fun hp y hy => hn hp y (by simp [hy]))
  unfold applyOrder at e
  split at e
  · rename_i hm
    have e := Option.some.inj e
    subst e
    exact hskip (fun e => by rw [hm] at e; cases e)
  · rename_i hmatched
    simp only at e
    cases hk : x.kind with
    | pool id =>
      rw [hk] at e
      simp only at e
      have hx : userId x = none := by unfold userId; rw [hk]
      split at e
      · have e := Option.some.inj e
        subst e
        exact hskip (fun _ => hx)
      · split at e
        · cases e
        · have e := Option.some.inj e
          subst e
          exact hskip (fun _ => hx)
    | user oid bid =>
      rw [hk] at e
      simp only at e
      have hx : userId x = some oid := by unfold userId; rw [hk]
      split at e
      · cases e
      · rename_i rec hrec
        split at e
        · cases e
        · obtain ⟨r1, r2, r3⟩ := h.wf.getOrder_iff.1 hrec
          obtain ⟨r0, q1, q2, q3, q4⟩ := h.users x (by simp) oid bid hk
          have hold : ∀ y ∈ ys, userId y ≠ some r0.id := by
            intro y hy e2
            have := (List.pairwise_append.1 h.distinct).2.2 y hy x (by simp) (by rw [e2]; simp)
            apply this
            rw [e2, hx, q3]
          have hmem : r0 ∈ st.s.orders := h.keep r0 q1 (fun _ y hy => hold y hy)
          have hrr : rec = r0 := h.wf.ordersS.inj r1 hmem (by simp [OrderRec.key, r2, r3, q2, q3])
          subst hrr
          change (match (if (rec.fill x).openAmt = 0 then finishOrder (rec.fill x) .completed st.s
              else some (st.s.setOrder { rec.fill x with status := .partiallyMatched })) with
            | none => none
            | some s' => some { st with s := s', op := st.op.queue (.pairEscrow pair.id) (.user rec.orderer) [⟨rec.demandDenom, x.received⟩] }) = some st' at e
          split at e
          · cases e
          · rename_i s2 hs2
            have e := Option.some.inj e
            subst e
            have hd1 : (rec.fill x).done = false := q4
            have hos : s2.orders = upsert OrderRec.key (rec.settle x) st.s.orders := by
              unfold OrderRec.settle
              split at hs2
              · rename_i ho0
                rw [if_pos ho0]
                exact (finishOrder_frame hd1 hs2).1
              · rename_i ho0
                have hs2 := Option.some.inj hs2
                subst hs2
                rw [if_neg ho0]; rfl
            have hm : ∀ o, o ∈ s2.orders ↔ o = rec.settle x ∨ (o ∈ st.s.orders ∧ o ≠ rec) := by
              intro o; rw [hos]; exact h.wf.mem_setOrder r1 rfl
            refine ⟨?_, ?_⟩
            · intro y hy hym r hr hp hu
              rcases List.mem_append.1 hy with hy | hy
              · refine (hm _).2 (Or.inr ⟨hA.done y hy hym r hr hp hu, fun e => ?_⟩)
                apply hold y hy
                rw [hu]
                have : (r.settle y).id = rec.id := by rw [e]
                exact congrArg some this
              · rw [List.mem_singleton] at hy
                subst hy
                rw [hx] at hu
                have hu := Option.some.inj hu
                have : r = rec := by
                  have hw0 : r.key = rec.key := by simp [OrderRec.key, hp, ← hu, r2, r3]
                  have hrm : r ∈ st.s.orders := h.keep r hr (fun _ z hz => by
                    have := hold z hz
                    rwa [r3, hu] at this)
                  exact h.wf.ordersS.inj hrm r1 hw0
                rw [this]
                exact (hm _).2 (Or.inl rfl)
            · intro r hr hn
              refine (hm r).2 (Or.inr ⟨hA.idle r hr (fun hp y hy => hn hp y (by simp [hy])), ?_⟩)
              rintro rfl
              exact hn r2 x (by simp) (by simpa using hmatched) (by rw [hx, r3])

theorem applied_all {pair : Pair} {s0 : State} : ∀ (xs ys : List Order) (st st' : ApplyState), Applying pair.id s0 ys xs st →
    AppliedAll pair.id s0 ys st.s → forEach (applyOrder pair) xs st = some st' → AppliedAll pair.id s0 (ys ++ xs) st'.s := by
  intro xs
  induction xs with
  | nil =>
    intro ys st st' _ hA e
    simp only [forEach, Option.some.injEq] at e
    subst e
    simpa using hA
  | cons x xs ih =>
    intro ys st st' h hA e
    simp only [forEach, Option.bind_eq_some_iff] at e
    obtain ⟨s1, e1, e2⟩ := e
    have := ih (ys ++ [x]) s1 st' (apply_step h e1) (applied_step h hA e1) e2
    simpa using this

theorem applyMatchResult_exact (hw : WF s) {pair : Pair} {os : List Order} {diff : Int}
    (hu : ∀ x ∈ os, ∀ oid b, x.kind = .user oid b → ∃ r ∈ s.orders, r.pairId = pair.id ∧ r.id = oid ∧ r.done = false)
    (hd : os.Pairwise (fun a b => userId a ≠ none → userId a ≠ userId b))
    (hf : ∀ o ∈ s.orders, o.pairId = pair.id → o.status ≠ .notExecuted)
    (h : applyMatchResult pair os diff s = some s') : AppliedAll pair.id s os s' := by
  unfold applyMatchResult at h
  split at h
  · cases h
  · rename_i b hb
    split at h
    · cases h
    · rename_i st hst
      split at h
      · cases h
      · rename_i b2 hb2
        have h := Option.some.inj h
        subst h
        obtain ⟨ra, wa⟩ := setOrder_bank_reach hw (bankStep_run hb) (keeps_run hb (by
          intro t ht e
          obtain ⟨id, hid⟩ := queuePool_src (os := os) (op := []) (by simp) t ht
          rw [e] at hid; cases hid))
        have hA := applied_all os [] _ st (s0 := { s with bank := b })
          ⟨wa, Relation.ReflTransGen.refl, hu, hd, hf, by simp, SameFrame.refl _, fun o ho _ => ho,
            fun o ho => ⟨o, ho, SameOrder.refl o, id, fun e => absurd rfl e, fun e1 e2 => by rw [e1] at e2; cases e2⟩,
            fun o ho => Or.inl ho⟩ ⟨by simp, fun r hr _ => hr⟩ hst
        rw [List.nil_append] at hA
        exact ⟨hA.done, hA.idle⟩

/-- The record of an order of the pair after the orders were collected. -/
theorem collect_exact (hw : WF s) (pid : Nat) {st : State × List Order} (h : forEach collectOrder (s.ordersOf pid) (s, []) = some st)
    {o : OrderRec} (ho : o ∈ s.orders) (hp : o.pairId = pid) :
    (if o.done then o else if o.status = .notExecuted then { o with status := .notMatched } else
      if o.expiredAt s.time then { o with status := .expired } else o) ∈ st.1.orders := by
  have hC := collect_all hw pid h
  obtain ⟨o', k1, k2⟩ := (stays_reach hw hC.reach).orders o ho
  obtain ⟨o0, b1, b2⟩ := hC.back o' k1
  have : o0 = o := hw.ordersS.inj b1 ho (by rw [← b2.same.key, k2])
  subst this
  have hp' : o'.pairId = pid := by
    have := b2.same
    unfold SameOrder at this
    rw [this.2.2.1, hp]
  rcases b2 with rfl | ⟨e1, rfl⟩ | ⟨e1, e2, e3, rfl⟩
  · cases hd : o'.done with
    | true => rw [if_pos rfl]; exact k1
    | false =>
      rw [if_neg (by simp)]
      by_cases hs : o'.status = .notExecuted
      · cases hC.fresh o' k1 hp' hs
      · rw [if_neg hs]
        by_cases he : o'.expiredAt s.time = true
        · obtain ⟨r0, c1, c2, c3⟩ := hC.expired k1 hp' hd he
          have : r0 = o' := hw.ordersS.inj c1 ho c3.key.symm
          rw [this] at c2
          exact absurd c2 hs
        · rw [if_neg he]; exact k1
  · have hd : o0.done = false := by unfold OrderRec.done; rw [e1]; rfl
    rw [if_neg (by rw [hd]; simp), if_pos e1]; exact k1
  · rw [if_neg (by rw [e1]; simp), if_neg e2, if_pos e3]; exact k1

/-- The record of an order after the expiry pass. -/
theorem expire_exact (hw : WF s) (h : forEach expireOrder s.orders s = some s') {o : OrderRec} (ho : o ∈ s.orders) :
    (if o.done then o else if o.expiredAt s.time || isTooSmallOrderAmount o.openAmt o.price then { o with status := .expired } else o) ∈ s'.orders := by
  have hE := expire_all hw h
  obtain ⟨o', k1, k2⟩ := (stays_reach hw hE.reach).orders o ho
  obtain ⟨o0, b1, b2⟩ := hE.back o' k1
  have hk : o0.key = o'.key := by rcases b2 with rfl | ⟨_, rfl, _⟩ <;> rfl
  have : o0 = o := hw.ordersS.inj b1 ho (hk.trans k2)
  subst this
  rcases b2 with rfl | ⟨e1, rfl, e3⟩
  · cases hd : o'.done with
    | true => rw [if_pos rfl]; exact k1
    | false =>
      rw [if_neg (by simp)]
      rcases hE.ok o' k1 with h1 | h1 | h1
      · cases h1
      · rw [h1] at hd; cases hd
      · rw [if_neg (by rw [h1.1, h1.2]; simp)]; exact k1
  · rw [if_neg (by rw [e1]; simp), if_pos (by rw [Bool.or_eq_true]; exact e3)]; exact k1

/-- The records of the pools of the pair after the pools were collected. -/
theorem collectPool_exact (hw : WF s) {env : Env} {pair : Pair} {st : State × List (Nat × Pool)}
    (h : forEach (collectPool env pair) (s.poolsOf pair.id) (s, []) = some st) {q : PoolRec} (hq : q ∈ s.pools) (hp : q.pairId = pair.id) :
    (q.disabled = true ∧ q ∈ st.1.pools) ∨ (q.disabled = false ∧ ∃ ap, ammPool env q (s.bank.bal (.poolReserve q.id) pair.quote)
      (s.bank.bal (.poolReserve q.id) pair.base) (s.bank.supply (.pool q.id)) = some ap ∧
      (if ap.isDepleted then { q with disabled := true } else q) ∈ st.1.pools) := by
  have key : (q ∈ ([] : List PoolRec)) ∨ (q.disabled = true ∧ q ∈ st.1.pools) ∨ (q.disabled = false ∧ ∃ ap, ammPool env q (s.bank.bal (.poolReserve q.id) pair.quote)
      (s.bank.bal (.poolReserve q.id) pair.base) (s.bank.supply (.pool q.id)) = some ap ∧
      (if ap.isDepleted then { q with disabled := true } else q) ∈ st.1.pools) := by
    refine (forEach_inv (f := collectPool env pair) (fun xs t => CollectingPools env pair s xs t ∧
      (q ∈ xs ∨ (q.disabled = true ∧ q ∈ t.1.pools) ∨ (q.disabled = false ∧ ∃ ap, ammPool env q (s.bank.bal (.poolReserve q.id) pair.quote)
      (s.bank.bal (.poolReserve q.id) pair.base) (s.bank.supply (.pool q.id)) = some ap ∧
      (if ap.isDepleted then { q with disabled := true } else q) ∈ t.1.pools))) ?_ _ _ _ ?_ h).2
    · rintro x xs ⟨t, ps⟩ st' ⟨h1, h2⟩ e
      refine ⟨collectPool_step h1 e, ?_⟩
      obtain ⟨x1, x2⟩ := h1.pending x (by simp)
      have hnd := h1.nodup
      by_cases hxq : q = x
      · subst hxq
        right
        have hb := h1.bank
        simp only at hb x1
        unfold collectPool State.poolRx State.poolRy State.poolSupply at e
        simp only [hb] at e
        split at e
        · rename_i hdis
          have e := Option.some.inj e
          subst e
          exact Or.inl ⟨hdis, x1⟩
        · rename_i hdis
          right
          refine ⟨by simpa using hdis, ?_⟩
          split at e
          · cases e
          · rename_i ap hap
            refine ⟨ap, hap, ?_⟩
            split at e
            · rename_i hd
              have e := Option.some.inj e
              subst e
              rw [if_pos hd]
              have hm := h1.wf.mem_setPool x1 (p' := { q with disabled := true }) (by rfl) (x := { q with disabled := true })
              exact hm.2 (Or.inl rfl)
            · rename_i hd
              have e := Option.some.inj e
              subst e
              rw [if_neg hd]; exact x1
      · have hkeep : ∀ z : PoolRec, z.id = q.id → z ∈ t.pools → q ∈ s.pools → z ∈ st'.1.pools := by
          intro z hz hzt _
          unfold collectPool at e
          split at e
          · have e := Option.some.inj e
            subst e; exact hzt
          · split at e
            · cases e
            · split at e
              · have e := Option.some.inj e
                subst e
                have hm := h1.wf.mem_setPool x1 (p' := { x with disabled := true }) (by rfl) (x := z)
                refine hm.2 (Or.inr ⟨hzt, ?_⟩)
                rintro rfl
                have := h1.orig z (by simp)
                exact hxq (hw.key_pool hq this hz.symm)
              · have e := Option.some.inj e
                subst e; exact hzt
        rcases h2 with h2 | ⟨h2, h3⟩ | ⟨h2, ap, h3, h4⟩
        · rcases List.mem_cons.1 h2 with h2 | h2
          · exact absurd h2 hxq
          · exact Or.inl h2
        · exact Or.inr (Or.inl ⟨h2, hkeep q rfl h3 hq⟩)
        · refine Or.inr (Or.inr ⟨h2, ap, h3, hkeep _ ?_ h4 hq⟩)
          split <;> rfl
    · refine ⟨⟨hw, Relation.ReflTransGen.refl, hw.poolsS.nodup.filter _, ?_, rfl, rfl, rfl, rfl, rfl, rfl, rfl, rfl, rfl, rfl, rfl, rfl, by simp, ?_, by simp, by simp⟩, Or.inl ?_⟩
      · intro x hx
        simpa [State.poolsOf] using hx
      · intro x hx
        exact (List.mem_filter.1 hx).1
      · unfold State.poolsOf
        exact List.mem_filter.2 ⟨hq, by simpa using hp⟩
  rcases key with h | h
  · cases h
  · exact h

/-- The record of an order after the orders of the pair were collected. -/
def OrderRec.collected (now : Int) (o : OrderRec) : OrderRec :=
  if o.done then o else if o.status = .notExecuted then { o with status := .notMatched } else
    if o.expiredAt now then { o with status := .expired } else o

theorem collected_same (now : Int) (o : OrderRec) : ∃ st, o.collected now = { o with status := st } := by
  unfold OrderRec.collected
  split
  · exact ⟨o.status, rfl⟩
  · split
    · exact ⟨_, rfl⟩
    · split
      · exact ⟨_, rfl⟩
      · exact ⟨o.status, rfl⟩

/-- The matching of one pair, exactly. -/
structure MatchExact (env : Env) (pair : Pair) (s s' : State) (pools : List (Nat × Pool)) (out : Option MatchOut) : Prop where
  result : keeperMatch env s.params ((bookOrders s pair.id).map newUserOrder) pools pair.lastPrice = some out
  distinct : (pools.map (·.1)).Nodup
  src : ∀ e ∈ pools, ∃ pool ∈ s.pools, pool.pairId = pair.id ∧ pool.disabled = false ∧ e.1 = pool.id ∧
      ammPool env pool (s.bank.bal (.poolReserve pool.id) pair.quote) (s.bank.bal (.poolReserve pool.id) pair.base)
        (s.bank.supply (.pool pool.id)) = some e.2 ∧ e.2.isDepleted = false
  comp : ∀ pool ∈ s.pools, pool.pairId = pair.id → pool.disabled = false → ∃ ap,
      ammPool env pool (s.bank.bal (.poolReserve pool.id) pair.quote) (s.bank.bal (.poolReserve pool.id) pair.base)
        (s.bank.supply (.pool pool.id)) = some ap ∧ (ap.isDepleted = false → (pool.id, ap) ∈ pools)
  ledger : ∀ a d, ledger s' a d = ledger s a d + total (fun y => if y.isMatched then flow pair y a d else 0) (resultOrders out) +
    transferEffect ⟨.pairEscrow pair.id, s.params.dustCollector, [⟨pair.quote, resultDiff out⟩]⟩ a d
  pairs : s'.pairs = upsert Pair.key { pair with lastPrice := resultPrice pair.lastPrice out, batchId := pair.batchId + 1 } s.pairs
  users : ∀ y ∈ resultOrders out, ∀ oid b, y.kind = .user oid b → ∃ o ∈ bookOrders s pair.id, o.id = oid ∧ o.batchId = b
  done : ∀ y ∈ resultOrders out, y.isMatched = true → ∀ r ∈ s.orders, r.pairId = pair.id → userId y = some r.id → r.settle y ∈ s'.orders
  idle : ∀ r ∈ s.orders, r.pairId = pair.id → (∀ y ∈ resultOrders out, y.isMatched = true → userId y ≠ some r.id) →
    r.collected s.time ∈ s'.orders
  pools : ∀ q ∈ s.pools, q.pairId = pair.id → (q.disabled = true ∧ q ∈ s'.pools) ∨ (q.disabled = false ∧ ∃ ap,
    ammPool env q (s.bank.bal (.poolReserve q.id) pair.quote)
      (s.bank.bal (.poolReserve q.id) pair.base) (s.bank.supply (.pool q.id)) = some ap ∧
      (if ap.isDepleted then { q with disabled := true } else q) ∈ s'.pools)

theorem executeMatching_exact (hw : WF s) {env : Env} {pair : Pair} (hp : pair ∈ s.pairs) (h : executeMatching env pair s = some s') :
    ∃ pools out, MatchExact env pair s s' pools out := by
  unfold executeMatching at h
  split at h
  · cases h
  · rename_i s1 os hc
    have hC := collect_all hw pair.id hc
    have hL := fun a d => collect_ledger hw pair.id hc a d
    have hO : os = (bookOrders s pair.id).map newUserOrder := by
      have := collect_list _ _ _ _ hc
      rw [List.nil_append] at this
      exact this
    have hR := fun id d => collect_reserve hw pair.id hc id d
    simp only at hL
    split at h
    · cases h
    · rename_i s2 pools hpl
      have hP := collectPool_all hC.wf hpl
      have hL2 : ∀ a d, ledger s2 a d = ledger s a d := by
        intro a d
        rw [ledger_congr (s := s1) (congrArg Bank.bal hP.bank) hP.orders hP.deposits hP.withdraws, hL]
      have hprm : s2.params = s.params := hP.params.trans hC.frame.params
      have hpools : ∀ e ∈ pools, ∃ pool ∈ s.pools, pool.pairId = pair.id ∧ pool.disabled = false ∧ e.1 = pool.id ∧
          ammPool env pool (s.bank.bal (.poolReserve pool.id) pair.quote) (s.bank.bal (.poolReserve pool.id) pair.base)
            (s.bank.supply (.pool pool.id)) = some e.2 ∧ e.2.isDepleted = false := by
        intro e he
        obtain ⟨pool, p1, p2, p3, p4, p5, p6, p7⟩ := hP.src e he
        rw [hC.frame.pools] at p7
        have q1 := hR pool.id pair.quote
        have q2 := hR pool.id pair.base
        simp only at q1 q2 p5
        rw [q1.1, q2.1, q1.2] at p5
        exact ⟨pool, p7, p2, p3, p4, p5, p6⟩
      have hcomp : ∀ pool ∈ s.pools, pool.pairId = pair.id → pool.disabled = false → ∃ ap,
          ammPool env pool (s.bank.bal (.poolReserve pool.id) pair.quote) (s.bank.bal (.poolReserve pool.id) pair.base)
            (s.bank.supply (.pool pool.id)) = some ap ∧ (ap.isDepleted = false → (pool.id, ap) ∈ pools) := by
        intro pool h1 h2 h3
        have := (collectPool_complete _ _ _ hpl).2 pool (by
          unfold State.poolsOf
          rw [List.mem_filter, hC.frame.pools]
          exact ⟨h1, by simpa using h2⟩) h3
        have q1 := hR pool.id pair.quote
        have q2 := hR pool.id pair.base
        simp only at q1 q2 this
        rw [q1.1, q2.1, q1.2] at this
        exact this
      have hcol : ∀ r ∈ s.orders, r.pairId = pair.id → r.collected s.time ∈ s2.orders := by
        intro r hr hrp
        rw [hP.orders]
        exact collect_exact hw pair.id hc hr hrp
      have hpx : ∀ q ∈ s.pools, q.pairId = pair.id → (q.disabled = true ∧ q ∈ s2.pools) ∨ (q.disabled = false ∧ ∃ ap,
          ammPool env q (s.bank.bal (.poolReserve q.id) pair.quote)
          (s.bank.bal (.poolReserve q.id) pair.base) (s.bank.supply (.pool q.id)) = some ap ∧
          (if ap.isDepleted then { q with disabled := true } else q) ∈ s2.pools) := by
        intro q hq hqp
        have := collectPool_exact hC.wf hpl (q := q) (by rw [hC.frame.pools]; exact hq) hqp
        have q1 := hR q.id pair.quote
        have q2 := hR q.id pair.base
        simp only at q1 q2 this
        rw [q1.1, q2.1, q1.2] at this
        exact this
      rw [hprm] at h
      split at h
      · cases h
      · rename_i hk
        have h := Option.some.inj h
        subst h
        rw [hO] at hk
        refine ⟨pools, none, hk, hP.distinct, hpools, hcomp, ?_, ?_, by simp [resultOrders], by simp [resultOrders], fun r hr hrp _ => hcol r hr hrp, hpx⟩
        · intro a d
          have : transferEffect ⟨.pairEscrow pair.id, s.params.dustCollector, [⟨pair.quote, resultDiff none⟩]⟩ a d = 0 := by
            unfold transferEffect
            simp [amountOf_single, resultDiff]
          rw [this]
          simp only [resultOrders, total, List.map_nil, List.sum_nil, add_zero]
          exact hL2 a d
        · show upsert Pair.key _ s2.pairs = _
          rw [hP.pairs, hC.frame.pairs]; rfl
      · rename_i out hout
        split at h
        · cases h
        · rename_i s3 h3
          simp only at h
          have h := Option.some.inj h
          subst h
          have hfr : ∀ o ∈ s2.orders, o.pairId = pair.id → o.status ≠ .notExecuted := by
            intro o ho e1 e2
            rw [hP.orders] at ho
            cases hC.fresh o ho e1 e2
          obtain ⟨pos, h', k1, k2, k3⟩ := keeperMatch_ids hout
          obtain ⟨u1, u2⟩ := matched_users (fun o ho => (k1 o ho).imp fun _ h => h.2) hC.distinct k2
          rw [← k3] at u1 u2
          have hu : ∀ x ∈ out.orders, ∀ oid b, x.kind = .user oid b → ∃ r ∈ s2.orders, r.pairId = pair.id ∧ r.id = oid ∧ r.done = false ∧ r.dir = x.dir := by
            intro x hx oid b hk
            obtain ⟨y, y1, y2, y3⟩ := u1 x hx oid b hk
            obtain ⟨r, r1, r2, r3, r4, r5, _⟩ := hC.src y y1
            refine ⟨r, by rw [hP.orders]; exact r1, r2, ?_, r3, ?_⟩
            · rw [r5, hk] at y2
              simp only [newUserOrder, newBaseOrder, OKind.user.injEq] at y2
              exact y2.1
            · rw [← y3, r5]; rfl
          have hu1 : ∀ x ∈ out.orders, ∀ oid b, x.kind = .user oid b → ∃ r ∈ s2.orders, r.pairId = pair.id ∧ r.id = oid ∧ r.done = false := by
            intro x hx oid b hk
            obtain ⟨r, r1, r2, r3, r4, _⟩ := hu x hx oid b hk
            exact ⟨r, r1, r2, r3, r4⟩
          have hp2 : pair ∈ s2.pairs := by rw [hP.pairs]; rw [hC.frame.pairs]; exact hp
          have hx : ∀ x ∈ out.orders, ∀ oid b, x.kind = .user oid b → ∀ r ∈ s2.orders, r.pairId = pair.id → r.id = oid →
              r.offerDenom = pair.offerDenom x.dir ∧ r.demandDenom = pair.demandDenom x.dir := by
            intro x hx oid b hk r hr e1 e2
            obtain ⟨r', r1, r2, r3, r4, r5⟩ := hu x hx oid b hk
            have : r = r' := hP.wf.ordersS.inj hr r1 (by simp [OrderRec.key, e1, e2, r2, r3])
            subst this
            obtain ⟨_, _, q, q1, q2, q3, q4⟩ := hP.wf.ordsOk r hr
            have : q = pair := hP.wf.key_pair q1 hp2 (by rw [q2, e1])
            subst this
            rw [← r5]; exact ⟨q3, q4⟩
          have hA := applyMatchResult_spec hP.wf (pair := pair) hu1 u2 hfr h3
          have hX := applyMatchResult_exact hP.wf (pair := pair) hu1 u2 hfr h3
          have hpl3 := applyMatchResult_pools h3
          refine ⟨pools, some out, by rw [← hO]; exact hout, hP.distinct, hpools, hcomp, ?_, ?_, ?_, ?_, ?_, ?_⟩
          · intro a d
            refine (ledger_congr (s := s3) rfl rfl rfl rfl a d).trans ?_
            rw [applyMatchResult_ledger hP.wf hu1 hx u2 hfr h3, hL2, hprm]
            rfl
          · show upsert Pair.key _ s3.pairs = _
            rw [hA.frame.pairs, hP.pairs, hC.frame.pairs]; rfl
          · intro y hy oid b hk
            obtain ⟨z, z1, z2, _⟩ := u1 y hy oid b hk
            rw [hO] at z1
            obtain ⟨o, o1, rfl⟩ := List.mem_map.1 z1
            rw [hk] at z2
            simp only [newUserOrder, newBaseOrder, OKind.user.injEq] at z2
            exact ⟨o, o1, z2⟩
          · intro y hy hm r hr hrp hry
            obtain ⟨st, hst⟩ := collected_same s.time r
            have hc := hcol r hr hrp
            rw [hst] at hc
            have := hX.done y hy hm { r with status := st } hc hrp hry
            exact this
          · intro r hr hrp hn
            obtain ⟨st, hst⟩ := collected_same s.time r
            have hc := hcol r hr hrp
            refine hX.idle _ hc (fun _ y hy hm => ?_)
            rw [hst]
            exact hn y hy hm
          · intro q hq hqp
            show _ ∨ (_ ∧ ∃ ap, _ ∧ _ ∈ s3.pools)
            rw [hpl3]
            exact hpx q hq hqp

/-- What the matching of other pairs leaves alone. -/
structure Untouched (pid : Nat) (s t : State) : Prop where
  orders : ∀ o, o.pairId = pid → (o ∈ t.orders ↔ o ∈ s.orders)
  pools : ∀ q, q.pairId = pid → (q ∈ t.pools ↔ q ∈ s.pools)
  pairs : ∀ x, x.id = pid → (x ∈ t.pairs ↔ x ∈ s.pairs)
  supply : t.bank.supply = s.bank.supply
  params : t.params = s.params
  time : t.time = s.time
  reserve : ∀ q ∈ s.pools, q.pairId = pid → ∀ d, t.bank.bal (.poolReserve q.id) d = s.bank.bal (.poolReserve q.id) d
  escrow : (∀ id, s.params.dustCollector ≠ .pairEscrow id) → ∀ d, escrowSlack t pid d = escrowSlack s pid d

theorem Untouched.refl (pid : Nat) (s : State) : Untouched pid s s :=
  ⟨fun _ _ => Iff.rfl, fun _ _ => Iff.rfl, fun _ _ => Iff.rfl, rfl, rfl, rfl, fun _ _ _ _ => rfl, fun _ _ => rfl⟩

theorem Untouched.trans {pid : Nat} {a b c : State} (h : Untouched pid a b) (h' : Untouched pid b c) : Untouched pid a c where
  orders := fun o ho => (h'.orders o ho).trans (h.orders o ho)
  pools := fun o ho => (h'.pools o ho).trans (h.pools o ho)
  pairs := fun o ho => (h'.pairs o ho).trans (h.pairs o ho)
  supply := h'.supply.trans h.supply
  params := h'.params.trans h.params
  time := h'.time.trans h.time
  reserve := fun q hq hp d => (h'.reserve q ((h.pools q hp).2 hq) hp d).trans (h.reserve q hq hp d)
  escrow := fun hd d => (h'.escrow (by rw [h.params]; exact hd) d).trans (h.escrow hd d)

theorem untouched_step (hw : WF s) {env : Env} {x : Pair} (hx : x ∈ s.pairs) (h : executeMatching env x s = some s') {pid : Nat}
    (hne : x.id ≠ pid) (hdust : ∀ id, s.params.dustCollector ≠ .poolReserve id) : Untouched pid s s' := by
  have hm := executeMatching_spec hw hx h
  refine ⟨fun o ho => hm.others o (fun e => hne (e.symm.trans ho)), fun q hq => executeMatching_pools_others hw h (fun e => hne (e.symm.trans hq)), ?_,
    rel_executeMatching supply_rel h, hm.params, hm.time, fun q hq hqp d => executeMatching_reserve_others hw hx h hq (fun e => hne (e.symm.trans hqp)) (hdust _) d, ?_⟩
  · intro z hz
    obtain ⟨lp, e⟩ := hm.pairs
    rw [e]
    have := hw.mem_setPair hx (p' := { x with lastPrice := lp, batchId := x.batchId + 1 }) rfl (x := z)
    refine this.trans ?_
    constructor
    · rintro (rfl | h)
      · exact absurd hz hne
      · exact h.1
    · intro h1
      exact Or.inr ⟨h1, fun e => hne (e ▸ hz)⟩
  · intro hd d
    obtain ⟨pools, out, hX⟩ := executeMatching_exact hw hx h
    have := hX.ledger (.pairEscrow pid) d
    rw [ledger_escrow, ledger_escrow] at this
    rw [this, total_zero]
    · have : transferEffect ⟨.pairEscrow x.id, s.params.dustCollector, [⟨x.quote, resultDiff out⟩]⟩ (.pairEscrow pid) d = 0 := by
        unfold transferEffect
        rw [if_neg (fun e => hd pid e.symm), if_neg (show ¬ Addr.pairEscrow pid = .pairEscrow x.id by simpa using Ne.symm hne)]
        ring
      rw [this]; ring
    · intro y _
      have : flow x y (.pairEscrow pid) d = 0 := by
        unfold flow
        rw [if_neg (show ¬ Addr.pairEscrow pid = .pairEscrow x.id by simpa using Ne.symm hne)]
        cases y.kind <;> simp
      rw [this]; simp

theorem untouched_all {s0 : State} {env : Env} {pid : Nat} (hdust : ∀ id, s0.params.dustCollector ≠ .poolReserve id) :
    ∀ (xs ys : List Pair) (t t' : State), Matching s0 (xs ++ ys) t → (∀ x ∈ xs, x.id ≠ pid) → forEach (executeMatching env) xs t = some t' →
      Untouched pid t t' ∧ Matching s0 ys t' := by
  intro xs
  induction xs with
  | nil =>
    intro ys t t' hm _ e
    simp only [forEach, Option.some.injEq] at e
    subst e
    exact ⟨Untouched.refl _ _, hm⟩
  | cons x xs ih =>
    intro ys t t' hm hne e
    simp only [forEach, Option.bind_eq_some_iff] at e
    obtain ⟨t1, e1, e2⟩ := e
    have h1 := untouched_step hm.wf (hm.pending x (by simp)).1 e1 (hne x (by simp)) (by rw [hm.params]; exact hdust)
    obtain ⟨h2, h3⟩ := ih ys t1 t' (matching_step hm e1) (fun z hz => hne z (by simp [hz])) e2
    exact ⟨h1.trans h2, h3⟩

theorem reserve_of_ledger {t : State} {id : Nat} {d : Denom} {x : Int} (h : ledger t (.poolReserve id) d = ledger s (.poolReserve id) d + x)
    (h1 : t.deposits = s.deposits) (h2 : t.withdraws = s.withdraws) : t.bank.bal (.poolReserve id) d = s.bank.bal (.poolReserve id) d + x := by
  rw [ledger_reserve, ledger_reserve, h1, h2] at h
  omega

theorem tooSmall_iff {a p : Int} : isTooSmallOrderAmount a p = true ↔ TooSmall a p := by
  unfold isTooSmallOrderAmount TooSmall Dec.mulInt Dec.ofInt
  rw [Bool.or_eq_true, decide_eq_true_eq, decide_eq_true_eq]
  have h1 : minCoinAmount = 100 := rfl
  have h2 : Dec.one = 10 ^ 18 := rfl
  rw [h1, h2]

theorem bookOrder_new {o : OrderRec} (h1 : 0 ≤ o.remaining) (h2 : 0 < o.price) : BookOrder o (newUserOrder o) := by
  refine ⟨⟨rfl, rfl, rfl, rfl⟩, ⟨rfl, rfl, rfl⟩, ?_, ?_⟩
  · intro hd
    unfold newUserOrder newBaseOrder
    rw [hd]
  · intro hd
    have hamt : (newUserOrder o).amount = min o.openAmt (o.remaining * 10 ^ 18 / o.price) := by
      unfold newUserOrder newBaseOrder
      rw [hd]
      simp only
      congr 1
      unfold Dec.truncateInt Dec.quoTruncate Dec.ofInt
      have ho : (0 : Int) ≤ o.remaining * Dec.one := Int.mul_nonneg h1 (by decide)
      rw [Int.tdiv_eq_ediv_of_nonneg (Int.mul_nonneg ho (by decide)), Int.tdiv_eq_ediv_of_nonneg (Int.ediv_nonneg (Int.mul_nonneg ho (by decide)) (le_of_lt h2)),
        Int.ediv_ediv_of_nonneg (le_of_lt h2), Int.mul_ediv_mul_of_pos_left _ _ (by decide)]
      rfl
    rw [hamt]
    refine ⟨min_le_left _ _, ?_, ?_⟩
    · have h3 : min o.openAmt (o.remaining * 10 ^ 18 / o.price) ≤ o.remaining * 10 ^ 18 / o.price := min_le_right _ _
      calc o.price * min o.openAmt (o.remaining * 10 ^ 18 / o.price) ≤ o.price * (o.remaining * 10 ^ 18 / o.price) :=
            Int.mul_le_mul_of_nonneg_left h3 (le_of_lt h2)
        _ ≤ o.remaining * 10 ^ 18 := Int.mul_ediv_self_le (ne_of_gt h2)
    · intro a ha hb
      refine le_min ha ?_
      rw [Int.le_ediv_iff_mul_le h2]
      rw [Int.mul_comm]; exact hb

/-- The matching and the expiry of a batch, for one pair. -/
theorem pair_batch (hw : WF s) {env : Env} {s1 : State} (h1 : forEach (executeMatching env) s.pairs s = some s1)
    (h2 : forEach expireOrder s1.orders s1 = some s') {p : Pair} (hp : p ∈ s.pairs) (hdust : ∀ id, s.params.dustCollector ≠ .poolReserve id) :
    ∃ book pools out, PairBatch env s s' p book pools out := by
  obtain ⟨pre, post, hsplit⟩ := List.append_of_mem hp
  have hnd : s.pairs.Nodup := hw.pairsS.nodup
  have hids : ∀ x ∈ s.pairs, x ≠ p → x.id ≠ p.id := fun x hx hne e => hne (hw.key_pair hx hp e)
  have hpre : ∀ x ∈ pre, x.id ≠ p.id := by
    intro x hx
    refine hids x (by rw [hsplit]; simp [hx]) ?_
    rintro rfl
    rw [hsplit] at hnd
    exact (List.nodup_append.1 hnd).2.2 x hx x (by simp) rfl
  have hpost : ∀ x ∈ post, x.id ≠ p.id := by
    intro x hx
    refine hids x (by rw [hsplit]; simp [hx]) ?_
    rintro rfl
    rw [hsplit] at hnd
    exact (List.nodup_cons.1 (List.nodup_append.1 hnd).2.1).1 hx
  have hm0 := matching_init hw
  rw [hsplit] at h1 hm0
  rw [forEach_append] at h1
  simp only [forEach, Option.bind_eq_some_iff] at h1
  obtain ⟨t, e1, t', e2, e3⟩ := h1
  obtain ⟨U1, M1⟩ := untouched_all hdust pre (p :: post) s t hm0 hpre e1
  have hpt := (M1.pending p (by simp)).1
  have M2 := matching_step M1 e2
  obtain ⟨U2, M3⟩ := untouched_all hdust post [] t' s1 (by rw [List.append_nil]; exact M2) hpost e3
  have hmt := executeMatching_spec M1.wf hpt e2
  obtain ⟨pools, out, X⟩ := executeMatching_exact M1.wf hpt e2
  have hE := expire_all M3.wf h2
  have hbook : ∀ o, o ∈ bookOrders t p.id ↔ o ∈ s.orders ∧ o.pairId = p.id ∧ Unfinished o ∧ (o.status = .notExecuted ∨ s.time < o.expireAt) := by
    intro o
    unfold bookOrders State.ordersOf
    rw [List.mem_filter, List.mem_filter, U1.time]
    have hmt : o.status.isMatchable = true ↔ Unfinished o := by
      unfold Unfinished
      cases o.status <;> simp [OStatus.isMatchable]
    have hex : o.expiredAt s.time = true ↔ ¬ s.time < o.expireAt := by simp [OrderRec.expiredAt]
    rw [Bool.and_eq_true, hmt, Bool.not_eq_true', Bool.and_eq_false_iff, decide_eq_false_iff_not, not_not]
    constructor
    · rintro ⟨⟨a1, a2⟩, a3, a4⟩
      have a2 : o.pairId = p.id := by simpa using a2
      refine ⟨(U1.orders o a2).1 a1, a2, a3, a4.imp id (fun e => ?_)⟩
      by_contra hc
      rw [hex.2 hc] at e; cases e
    · rintro ⟨a1, a2, a3, a4⟩
      refine ⟨⟨(U1.orders o a2).2 a1, by simpa using a2⟩, a3, a4.imp id (fun e => ?_)⟩
      rw [Bool.eq_false_iff]
      exact fun e' => hex.1 e' e
  -- reserves and supplies before the matching
  have hres := U1.reserve
  have hsup := U1.supply
  have hdone : ∀ {o : OrderRec}, o ∈ s1.orders → o.pairId = p.id → _ := fun {o} ho _ => expire_exact M3.wf h2 ho
  have htime : s1.time = s.time := by rw [U2.time, hmt.time, U1.time]
  have hexp : ∀ o : OrderRec, o.expiredAt s.time = true ↔ o.expireAt ≤ s.time := by
    intro o; simp [OrderRec.expiredAt]
  have hpool1 : ∀ q : PoolRec, q.pairId = p.id → (q ∈ t'.pools ↔ q ∈ s'.pools) := by
    intro q hq
    rw [hE.frame.pools, U2.pools q hq]
  have hprm : t.params = s.params := U1.params
  refine ⟨bookOrders t p.id, pools, out, ?_⟩
  refine {
    result := by rw [← hprm]; exact X.result
    nodup := ⟨(M1.wf.ordersS.nodup.filter _).filter _, X.distinct⟩
    bookIs := hbook
    ordersAre := ?_
    poolsAre := ?_
    pair := ?_
    users := X.users
    tradedOrders := ?_
    otherOrders := ?_
    finished := ?_
    emptyPools := ?_
    otherPools := ?_
    reserves := ?_
    escrow := ?_ }
  · intro o ho
    have := hw.ordsOk o ((hbook o).1 ho).1
    exact bookOrder_new this.1 this.2.1
  · intro id ap
    constructor
    · intro he
      obtain ⟨q, q1, q2, q3, q4, q5, q6⟩ := X.src _ he
      simp only at q4 q5 q6
      have q1 := (U1.pools q q2).1 q1
      rw [hres q q1 q2, hres q q1 q2, hsup, ← q4] at q5
      exact ⟨q, q1, q4.symm, q2, q3, q5, fun e => by rw [(ammPool_depleted q5).2 e] at q6; cases q6⟩
    · rintro ⟨q, q1, rfl, q2, q3, q5, q6⟩
      obtain ⟨ap', a1, a2⟩ := X.comp q ((U1.pools q q2).2 q1) q2 q3
      rw [hres q q1 q2, hres q q1 q2, hsup, q5] at a1
      have a1 := Option.some.inj a1
      subst a1
      exact a2 (by
        rw [Bool.eq_false_iff]
        exact fun e => q6 ((ammPool_depleted q5).1 e))
  · have hin : { p with lastPrice := resultPrice p.lastPrice out, batchId := p.batchId + 1 } ∈ t'.pairs := by
      rw [X.pairs]
      exact (M1.wf.mem_setPair hpt (p' := { p with lastPrice := resultPrice p.lastPrice out, batchId := p.batchId + 1 }) rfl).2 (Or.inl rfl)
    have := (U2.pairs { p with lastPrice := resultPrice p.lastPrice out, batchId := p.batchId + 1 } rfl).2 hin
    rw [hE.frame.pairs]
    exact this
  · intro o ho y hy hk hm
    obtain ⟨o1, o2, o3, _⟩ := (hbook o).1 ho
    have hot := (U1.orders o o2).2 o1
    have hu : userId y = some o.id := by unfold userId; rw [hk]
    have hd := X.done y hy (by unfold Order.isMatched; simpa using hm) o hot o2 hu
    have hd1 := (U2.orders _ (show (o.settle y).pairId = p.id from o2)).2 hd
    have hfin := expire_exact M3.wf h2 hd1
    refine ⟨_, hfin, ?_⟩
    rw [htime]
    unfold afterTrade
    have htr : traded o y = o.fill y := rfl
    rw [htr]
    by_cases h0 : (o.fill y).openAmt = 0
    · left
      refine ⟨h0, ?_⟩
      have : (o.settle y).done = true := by unfold OrderRec.settle OrderRec.done; rw [if_pos h0]; rfl
      rw [if_pos this]
      unfold OrderRec.settle
      rw [if_pos h0]
    · right
      have hnd : (o.settle y).done = false := by unfold OrderRec.settle OrderRec.done; rw [if_neg h0]; rfl
      rw [if_neg (by rw [hnd]; simp)]
      have hcond : ((o.settle y).expiredAt s.time || isTooSmallOrderAmount (o.settle y).openAmt (o.settle y).price) = true ↔
          (o.expireAt ≤ s.time ∨ TooSmall (o.fill y).openAmt o.price) := by
        rw [Bool.or_eq_true, tooSmall_iff]
        exact or_congr (hexp (o.settle y)) Iff.rfl
      by_cases hc : (o.expireAt ≤ s.time ∨ TooSmall (o.fill y).openAmt o.price)
      · left
        refine ⟨h0, hc, ?_⟩
        rw [if_pos (hcond.2 hc)]
        rfl
      · right
        refine ⟨h0, hc, ?_⟩
        rw [if_neg (fun e => hc (hcond.1 e))]
        unfold OrderRec.settle
        rw [if_neg h0]
  · intro o ho hop hu hn
    have hot := (U1.orders o hop).2 ho
    have hd := X.idle o hot hop (by
      intro y hy hm hy2
      have hkk : ∃ b, y.kind = .user o.id b := by
        unfold userId at hy2
        cases hk : y.kind with
        | user i b => rw [hk] at hy2; simp only [Option.some.injEq] at hy2; exact ⟨b, by rw [hy2]⟩
        | pool i => rw [hk] at hy2; cases hy2
      obtain ⟨b, hk⟩ := hkk
      obtain ⟨o2, k1, k2, k3⟩ := X.users y hy o.id b hk
      have h5 := (hbook o2).1 k1
      have : o2 = o := hw.ordersS.inj h5.1 ho (by simp [OrderRec.key, h5.2.1, hop, k2])
      subst this
      rw [← k3] at hk
      exact hn y hy hk (by unfold Order.isMatched at hm; simpa using hm))
    rw [U1.time] at hd
    have hpc : (o.collected s.time).pairId = p.id := by
      obtain ⟨st, e⟩ := collected_same s.time o
      rw [e]; exact hop
    have hd1 := (U2.orders _ hpc).2 hd
    have hfin := expire_exact M3.wf h2 hd1
    rw [htime] at hfin
    refine ⟨_, hfin, ?_⟩
    have hdo : o.done = false := (done_iff o).2 hu
    have hcond : ∀ st, (({ o with status := st } : OrderRec).expiredAt s.time || isTooSmallOrderAmount o.openAmt o.price) = true ↔
        (o.expireAt ≤ s.time ∨ TooSmall o.openAmt o.price) := by
      intro st
      rw [Bool.or_eq_true, tooSmall_iff]
      exact or_congr (hexp _) Iff.rfl
    unfold afterNoTrade
    unfold OrderRec.collected
    rw [if_neg (show ¬ o.done = true by rw [hdo]; simp)]
    by_cases hne : o.status = .notExecuted
    · rw [if_pos hne]
      simp only [hne, if_true]
      rw [if_neg (show ¬ ({ o with status := .notMatched } : OrderRec).done = true by simp [OrderRec.done, OStatus.shouldBeDeleted, OStatus.isCanceledOrExpired])]
      by_cases hc : (o.expireAt ≤ s.time ∨ TooSmall o.openAmt o.price)
      · rw [if_pos ((hcond .notMatched).2 hc)]
        exact Or.inl ⟨hc, rfl⟩
      · rw [if_neg (fun e => hc ((hcond .notMatched).1 e))]
        exact Or.inr ⟨hc, rfl⟩
    · rw [if_neg hne]
      simp only [hne, if_false]
      by_cases he : o.expiredAt s.time = true
      · rw [if_pos he]
        rw [if_pos (show ({ o with status := .expired } : OrderRec).done = true by rfl)]
        exact Or.inl ⟨Or.inl ((hexp o).1 he), rfl⟩
      · rw [if_neg he]
        rw [if_neg (show ¬ o.done = true by rw [hdo]; simp)]
        by_cases hc : (o.expireAt ≤ s.time ∨ TooSmall o.openAmt o.price)
        · rw [if_pos ((hcond o.status).2 hc)]
          exact Or.inl ⟨hc, rfl⟩
        · rw [if_neg (fun e => hc ((hcond o.status).1 e))]
          exact Or.inr ⟨hc, rfl⟩
  · intro o ho hop hu
    have hot := (U1.orders o hop).2 ho
    have hdo : o.done = true := by
      rw [← Bool.not_eq_false]
      exact fun e => hu ((done_iff o).1 e)
    have hd := X.idle o hot hop (by
      intro y hy hm hy2
      have hkk : ∃ b, y.kind = .user o.id b := by
        unfold userId at hy2
        cases hk : y.kind with
        | user i b => rw [hk] at hy2; simp only [Option.some.injEq] at hy2; exact ⟨b, by rw [hy2]⟩
        | pool i => rw [hk] at hy2; cases hy2
      obtain ⟨b, hk⟩ := hkk
      obtain ⟨o2, k1, k2, k3⟩ := X.users y hy o.id b hk
      have h5 := (hbook o2).1 k1
      have : o2 = o := hw.ordersS.inj h5.1 ho (by simp [OrderRec.key, h5.2.1, hop, k2])
      subst this
      exact hu h5.2.2.1)
    have hc : o.collected t.time = o := by unfold OrderRec.collected; rw [if_pos hdo]
    rw [hc] at hd
    have hfin := expire_exact M3.wf h2 ((U2.orders _ hop).2 hd)
    rw [if_pos hdo] at hfin
    exact hfin
  · intro q hq hqp hemp
    have := X.pools q ((U1.pools q hqp).2 hq) hqp
    rcases this with ⟨d1, d2⟩ | ⟨d1, ap, d2, d3⟩
    · have : ({ q with disabled := true } : PoolRec) = q := by rw [← d1]
      rw [this]
      exact (hpool1 q hqp).1 d2
    · rw [hres q hq hqp, hres q hq hqp, hsup] at d2
      rw [if_pos ((ammPool_depleted d2).2 hemp)] at d3
      exact (hpool1 { q with disabled := true } hqp).1 d3
  · intro q hq hqp hemp
    have := X.pools q ((U1.pools q hqp).2 hq) hqp
    rcases this with ⟨d1, d2⟩ | ⟨d1, ap, d2, d3⟩
    · exact (hpool1 q hqp).1 d2
    · rw [hres q hq hqp, hres q hq hqp, hsup] at d2
      rw [if_neg (fun e => hemp ((ammPool_depleted d2).1 e))] at d3
      exact (hpool1 q hqp).1 d3
  · intro q hq hqp d
    have e5 : s'.bank.bal (.poolReserve q.id) d = s1.bank.bal (.poolReserve q.id) d := by
      have := reserve_of_ledger (x := 0) (by rw [add_zero]; exact expire_ledger M3.wf h2 (.poolReserve q.id) d) hE.frame.deposits hE.frame.withdraws
      rw [this, add_zero]
    obtain ⟨q', hq', _⟩ : ∃ q' ∈ t'.pools, q'.id = q.id ∧ q'.pairId = q.pairId := by
      rcases X.pools q ((U1.pools q hqp).2 hq) hqp with ⟨d1, d2⟩ | ⟨d1, ap, d2, d3⟩
      · exact ⟨q, d2, rfl, rfl⟩
      · refine ⟨_, d3, ?_, ?_⟩ <;> split <;> rfl
    rename_i hqq
    have e6 := U2.reserve q' hq' (by rw [hqq.2]; exact hqp) d
    rw [hqq.1] at e6
    have e7 := reserve_of_ledger (x := poolGain p q.id d (resultOrders out)) (d := d) (id := q.id) (s := t) (t := t') (by
      rw [X.ledger, add_assoc]
      congr 1
      have hz : transferEffect ⟨.pairEscrow p.id, t.params.dustCollector, [⟨p.quote, resultDiff out⟩]⟩ (.poolReserve q.id) d = 0 := by
        unfold transferEffect
        rw [if_neg (fun e => hdust q.id (by rw [← hprm]; exact e.symm)), if_neg (by simp)]
        ring
      rw [hz, add_zero]
      unfold poolGain
      apply total_congr'
      intro y _
      unfold flow Order.isMatched
      rw [if_neg (show ¬ Addr.poolReserve q.id = .pairEscrow p.id by simp)]
      by_cases hym : y.openAmt < y.amount
      · simp only [hym, decide_true, and_true, if_true]
        cases hk : y.kind with
        | user a b => simp
        | pool id =>
          by_cases hid : id = q.id
          · subst hid; simp
          · simp [hid, Ne.symm hid]
      · simp [hym]) hmt.deposits hmt.withdraws
    rw [e5, e6, e7, hres q hq hqp]
  · intro hd d
    have e5 : escrowSlack s' p.id d = escrowSlack s1 p.id d := by
      rw [← ledger_escrow, ← ledger_escrow, expire_ledger M3.wf h2]
    rw [e5, U2.escrow (by rw [hmt.params, hprm]; exact hd), ← U1.escrow hd]
    have := X.ledger (.pairEscrow p.id) d
    rw [ledger_escrow, ledger_escrow] at this
    rw [this]
    have hz : transferEffect ⟨.pairEscrow p.id, t.params.dustCollector, [⟨p.quote, resultDiff out⟩]⟩ (.pairEscrow p.id) d =
        - (if d = p.quote then resultDiff out else 0) := by
      unfold transferEffect
      rw [if_neg (fun e => hd p.id (by rw [← hprm]; exact e.symm)), if_pos rfl]
      simp only [amountOf_single, eq_comm (a := p.quote)]
      ring
    rw [hz]
    have : total (fun y => if y.isMatched then flow p y (.pairEscrow p.id) d else 0) (resultOrders out) = tradedSurplus p d (resultOrders out) := by
      unfold tradedSurplus
      apply total_congr'
      intro y _
      unfold flow Order.isMatched
      rw [if_pos rfl]
      by_cases hym : y.openAmt < y.amount
      · simp only [hym, decide_true, if_true]
        cases hk : y.kind with
        | user a b => simp
        | pool id => simp
      · simp [hym]
    rw [this]
    ring

end Verif.Dex

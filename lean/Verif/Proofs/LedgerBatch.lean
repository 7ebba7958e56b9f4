import Verif.Proofs.Ledger
/-! # The ledger under the passes of a batch and under the messages -/
namespace Verif.Dex
open Verif Verif.Amm Verif.Spec

variable {s s' : State}

theorem finishOrder_time {o : OrderRec} {status : OStatus} (h : finishOrder o status s = some s') : s'.time = s.time := by
  cases hd : o.done with
  | true => rw [finishOrder_done hd h]
  | false => exact (finishOrder_same hd h).time

/-- The orders given to the book, in store order. -/
theorem collect_list : ∀ (xs : List OrderRec) (t : State) (os : List Order) (st : State × List Order),
    forEach collectOrder xs (t, os) = some st →
    st.2 = os ++ (xs.filter (fun o => o.status.isMatchable && !(decide (o.status ≠ .notExecuted) && o.expiredAt t.time))).map newUserOrder := by
  intro xs
  induction xs with
  | nil => intro t os st h; simp only [forEach, Option.some.injEq] at h; subst h; simp
  | cons x xs ih =>
    intro t os st h
    simp only [forEach, Option.bind_eq_some_iff] at h
    obtain ⟨⟨t1, os1⟩, h1, h2⟩ := h
    have hi := ih _ _ _ h2
    rw [hi]
    unfold collectOrder at h1
    simp only at h1
    by_cases hm : x.status.isMatchable = true
    · rw [if_pos hm] at h1
      by_cases he : x.status ≠ .notExecuted ∧ x.expiredAt t.time = true
      · rw [if_pos he, Option.map_eq_some_iff] at h1
        obtain ⟨t2, e1, e2⟩ := h1
        simp only [Prod.mk.injEq] at e2
        obtain ⟨rfl, rfl⟩ := e2
        rw [finishOrder_time e1, List.filter_cons_of_neg (by simp [hm, he])]
      · rw [if_neg he] at h1
        have h1 := Option.some.inj h1
        simp only [Prod.mk.injEq] at h1
        obtain ⟨e1, rfl⟩ := h1
        have ht : t1.time = t.time := by rw [← e1]; split <;> rfl
        have hc : (x.status.isMatchable && !(decide (x.status ≠ .notExecuted) && x.expiredAt t.time)) = true := by
          rw [hm, Bool.true_and, Bool.not_eq_true', Bool.and_eq_false_iff]
          by_cases e : x.status ≠ .notExecuted
          · right; exact Bool.eq_false_iff.2 (fun e' => he ⟨e, e'⟩)
          · left; simp [e]
        rw [ht, List.filter_cons, if_pos hc]
        simp
    · rw [if_neg hm] at h1
      have h1 := Option.some.inj h1
      simp only [Prod.mk.injEq] at h1
      obtain ⟨rfl, rfl⟩ := h1
      rw [List.filter_cons_of_neg (by simp [hm])]

theorem CollectRel.newUser {t : Int} {a b : OrderRec} (h : CollectRel t a b) : newUserOrder b = newUserOrder a := by
  rcases h with rfl | ⟨_, rfl⟩ | ⟨_, _, _, rfl⟩ <;> rfl

/-- The orders of a pair that take part in a batch. -/
def bookOrders (s : State) (pid : Nat) : List OrderRec :=
  (s.ordersOf pid).filter (fun o => o.status.isMatchable && !(decide (o.status ≠ .notExecuted) && o.expiredAt s.time))

/-- Every active pool is looked at, and trades if it is not depleted. -/
theorem collectPool_complete {env : Env} {pair : Pair} : ∀ (xs : List PoolRec) (st st' : State × List (Nat × Pool)),
    forEach (collectPool env pair) xs st = some st' →
    (∀ e ∈ st.2, e ∈ st'.2) ∧ ∀ pool ∈ xs, pool.disabled = false → ∃ ap, ammPool env pool (st.1.bank.bal (.poolReserve pool.id) pair.quote)
      (st.1.bank.bal (.poolReserve pool.id) pair.base) (st.1.bank.supply (.pool pool.id)) = some ap ∧
      (ap.isDepleted = false → (pool.id, ap) ∈ st'.2) := by
  intro xs
  induction xs with
  | nil => intro st st' h; simp only [forEach, Option.some.injEq] at h; subst h; simp
  | cons x xs ih =>
    intro st st' h
    simp only [forEach, Option.bind_eq_some_iff] at h
    obtain ⟨st1, h1, h2⟩ := h
    obtain ⟨i1, i2⟩ := ih _ _ h2
    unfold collectPool at h1
    split at h1
    · rename_i hd
      have h1 := Option.some.inj h1
      subst h1
      refine ⟨i1, ?_⟩
      intro pool hp hdis
      rcases List.mem_cons.1 hp with rfl | hp
      · rw [hd] at hdis; cases hdis
      · exact i2 pool hp hdis
    · split at h1
      · cases h1
      · rename_i ap hap
        split at h1
        · rename_i hdep
          have h1 := Option.some.inj h1
          subst h1
          refine ⟨i1, ?_⟩
          intro pool hp hdis
          rcases List.mem_cons.1 hp with rfl | hp
          · exact ⟨ap, hap, fun e => by rw [hdep] at e; cases e⟩
          · exact i2 pool hp hdis
        · have h1 := Option.some.inj h1
          subst h1
          refine ⟨fun e he => i1 e (by simp [he]), ?_⟩
          intro pool hp hdis
          rcases List.mem_cons.1 hp with rfl | hp
          · exact ⟨ap, hap, fun _ => i1 _ (by simp)⟩
          · exact i2 pool hp hdis

/-- The flows of the matching of one pair. -/
structure MatchFlow (env : Env) (pair : Pair) (s s' : State) : Prop where
  cases : ∃ pools : List (Nat × Pool),
    (∀ e ∈ pools, ∃ pool ∈ s.pools, pool.pairId = pair.id ∧ pool.disabled = false ∧ e.1 = pool.id ∧
      ammPool env pool (s.bank.bal (.poolReserve pool.id) pair.quote) (s.bank.bal (.poolReserve pool.id) pair.base)
        (s.bank.supply (.pool pool.id)) = some e.2 ∧ e.2.isDepleted = false) ∧ (pools.map (·.1)).Nodup ∧
    (∀ pool ∈ s.pools, pool.pairId = pair.id → pool.disabled = false → ∃ ap,
      ammPool env pool (s.bank.bal (.poolReserve pool.id) pair.quote) (s.bank.bal (.poolReserve pool.id) pair.base)
        (s.bank.supply (.pool pool.id)) = some ap ∧ (ap.isDepleted = false → (pool.id, ap) ∈ pools)) ∧
    ((keeperMatch env s.params ((bookOrders s pair.id).map newUserOrder) pools pair.lastPrice = some none ∧
        (∀ a d, ledger s' a d = ledger s a d) ∧ s'.shortfall = s.shortfall ∧ (∀ o ∈ s'.orders, ∃ o0 ∈ s.orders, CollectRel s.time o0 o) ∧
        s'.pairs = upsert Pair.key { pair with batchId := pair.batchId + 1 } s.pairs) ∨
      ∃ out, keeperMatch env s.params ((bookOrders s pair.id).map newUserOrder) pools pair.lastPrice = some (some out) ∧
        (∀ a d, ledger s' a d = ledger s a d + total (fun y => if y.isMatched then flow pair y a d else 0) out.orders +
          transferEffect ⟨.pairEscrow pair.id, s.params.dustCollector, [⟨pair.quote, out.diff⟩]⟩ a d) ∧
        (s'.shortfall = fun id => s.shortfall id + (if id = pair.id then baseImbalance out.orders else 0)) ∧
        (∀ o ∈ s'.orders, o.pairId = pair.id → ∃ o0 ∈ s.orders, CollectRel s.time o0 o ∨ ∃ r, CollectRel s.time o0 r ∧
          ∃ y ∈ out.orders, Filled pair.id r y o) ∧
        s'.pairs = upsert Pair.key { pair with lastPrice := some out.price, batchId := pair.batchId + 1 } s.pairs)

theorem collect_reserve (hw : WF s) (pid : Nat) {st : State × List Order}
    (h : forEach collectOrder (s.ordersOf pid) (s, []) = some st) (id : Nat) (d : Denom) :
    st.1.bank.bal (.poolReserve id) d = s.bank.bal (.poolReserve id) d ∧ st.1.bank.supply = s.bank.supply := by
  have := forEach_inv (f := collectOrder) (fun xs t => Collecting pid s xs t ∧
    (t.1.bank.bal (.poolReserve id) d = s.bank.bal (.poolReserve id) d ∧ t.1.bank.supply = s.bank.supply)) ?_ _ _ _ ?_ h
  · exact this.2
  · rintro x xs ⟨t, os⟩ st' ⟨hC, hl⟩ e
    refine ⟨collect_step hC e, ?_⟩
    have hx : x ∈ t.orders := hC.pending.2 x (by simp)
    unfold collectOrder at e
    simp only at e hl
    split at e
    · split at e
      · rw [Option.map_eq_some_iff] at e
        obtain ⟨t', e1, rfl⟩ := e
        cases hd : x.done with
        | true => rw [finishOrder_done hd e1]; exact hl
        | false =>
          have hm := finishOrder_effect hC.wf hd (hC.wf.ordsOk x hx).1 e1
          simp only
          rw [hm.1, hm.2]
          exact ⟨by simp [hl.1], hl.2⟩
      · have e := Option.some.inj e
        subst e
        simp only
        split <;> exact hl
    · have e := Option.some.inj e
      subst e; exact hl
  · exact ⟨⟨hw, Relation.ReflTransGen.refl, hw.pending _, fun x hx => by simpa [State.ordersOf] using (List.mem_filter.1 hx).2,
      fun o ho e1 _ => List.mem_filter.2 ⟨ho, by simpa using e1⟩, by simp,
      fun o ho e1 _ => Or.inl (List.mem_filter.2 ⟨ho, by simpa using e1⟩), by simp, by simp, SameFrame.refl s, by simp,
      fun x hx => (List.mem_filter.1 hx).1, fun o ho => ⟨o, ho, Or.inl rfl⟩⟩, rfl, rfl⟩

theorem executeMatching_flow (hw : WF s) {env : Env} {pair : Pair} (hp : pair ∈ s.pairs) (h : executeMatching env pair s = some s') :
    MatchFlow env pair s s' := by
  unfold executeMatching at h
  split at h
  · cases h
  · rename_i s1 os hc
    have hC := collect_all hw pair.id hc
    have hL := fun a d => collect_ledger hw pair.id hc a d
    have hO : os = (bookOrders s pair.id).map newUserOrder := by
      have := collect_list _ _ _ _ hc
      rw [List.nil_append] at this
      exact this
    have hR := fun id d => collect_reserve hw pair.id hc id d
    simp only at hL
    split at h
    · cases h
    · rename_i s2 pools hpl
      have hP := collectPool_all hC.wf hpl
      have hL2 : ∀ a d, ledger s2 a d = ledger s a d := by
        intro a d
        rw [ledger_congr (s := s1) (congrArg Bank.bal hP.bank) hP.orders hP.deposits hP.withdraws, hL]
      have hprm : s2.params = s.params := hP.params.trans hC.frame.params
      have hsf : s2.shortfall = s.shortfall := hP.shortfall.trans hC.frame.shortfall
      have hback : ∀ o ∈ s2.orders, ∃ o0 ∈ s.orders, CollectRel s.time o0 o := by
        intro o ho; rw [hP.orders] at ho; exact hC.back o ho
      have hpools : ∀ e ∈ pools, ∃ pool ∈ s.pools, pool.pairId = pair.id ∧ pool.disabled = false ∧ e.1 = pool.id ∧
          ammPool env pool (s.bank.bal (.poolReserve pool.id) pair.quote) (s.bank.bal (.poolReserve pool.id) pair.base)
            (s.bank.supply (.pool pool.id)) = some e.2 ∧ e.2.isDepleted = false := by
        intro e he
        obtain ⟨pool, p1, p2, p3, p4, p5, p6, p7⟩ := hP.src e he
        rw [hC.frame.pools] at p7
        have q1 := hR pool.id pair.quote
        have q2 := hR pool.id pair.base
        simp only at q1 q2 p5
        rw [q1.1, q2.1, q1.2] at p5
        exact ⟨pool, p7, p2, p3, p4, p5, p6⟩
      have hcomp : ∀ pool ∈ s.pools, pool.pairId = pair.id → pool.disabled = false → ∃ ap,
          ammPool env pool (s.bank.bal (.poolReserve pool.id) pair.quote) (s.bank.bal (.poolReserve pool.id) pair.base)
            (s.bank.supply (.pool pool.id)) = some ap ∧ (ap.isDepleted = false → (pool.id, ap) ∈ pools) := by
        intro pool h1 h2 h3
        have := (collectPool_complete _ _ _ hpl).2 pool (by
          unfold State.poolsOf
          rw [List.mem_filter, hC.frame.pools]
          exact ⟨h1, by simpa using h2⟩) h3
        have q1 := hR pool.id pair.quote
        have q2 := hR pool.id pair.base
        simp only at q1 q2 this
        rw [q1.1, q2.1, q1.2] at this
        exact this
      refine ⟨pools, hpools, hP.distinct, hcomp, ?_⟩
      rw [hprm] at h
      rw [← hO]
      split at h
      · cases h
      · rename_i hk
        have h := Option.some.inj h
        subst h
        exact Or.inl ⟨hk, fun a d => hL2 a d, hsf, fun o ho => hback o ho, by
          show upsert Pair.key _ s2.pairs = _
          rw [hP.pairs, hC.frame.pairs]⟩
      · rename_i out hout
        split at h
        · cases h
        · rename_i s3 h3
          simp only at h
          have h := Option.some.inj h
          subst h
          have hfr : ∀ o ∈ s2.orders, o.pairId = pair.id → o.status ≠ .notExecuted := by
            intro o ho e1 e2
            rw [hP.orders] at ho
            cases hC.fresh o ho e1 e2
          obtain ⟨pos, h', k1, k2, k3⟩ := keeperMatch_ids hout
          obtain ⟨u1, u2⟩ := matched_users (fun o ho => (k1 o ho).imp fun _ h => h.2) hC.distinct k2
          rw [← k3] at u1 u2
          have hu : ∀ x ∈ out.orders, ∀ oid b, x.kind = .user oid b → ∃ r ∈ s2.orders, r.pairId = pair.id ∧ r.id = oid ∧ r.done = false ∧ r.dir = x.dir := by
            intro x hx oid b hk
            obtain ⟨y, y1, y2, y3⟩ := u1 x hx oid b hk
            obtain ⟨r, r1, r2, r3, r4, r5, _⟩ := hC.src y y1
            refine ⟨r, by rw [hP.orders]; exact r1, r2, ?_, r3, ?_⟩
            · rw [r5, hk] at y2
              simp only [newUserOrder, newBaseOrder, OKind.user.injEq] at y2
              exact y2.1
            · rw [← y3, r5]; rfl
          have hu1 : ∀ x ∈ out.orders, ∀ oid b, x.kind = .user oid b → ∃ r ∈ s2.orders, r.pairId = pair.id ∧ r.id = oid ∧ r.done = false := by
            intro x hx oid b hk
            obtain ⟨r, r1, r2, r3, r4, _⟩ := hu x hx oid b hk
            exact ⟨r, r1, r2, r3, r4⟩
          have hp2 : pair ∈ s2.pairs := by rw [hP.pairs]; rw [hC.frame.pairs]; exact hp
          have hx : ∀ x ∈ out.orders, ∀ oid b, x.kind = .user oid b → ∀ r ∈ s2.orders, r.pairId = pair.id → r.id = oid →
              r.offerDenom = pair.offerDenom x.dir ∧ r.demandDenom = pair.demandDenom x.dir := by
            intro x hx oid b hk r hr e1 e2
            obtain ⟨r', r1, r2, r3, r4, r5⟩ := hu x hx oid b hk
            have : r = r' := hP.wf.ordersS.inj hr r1 (by simp [OrderRec.key, e1, e2, r2, r3])
            subst this
            obtain ⟨_, _, q, q1, q2, q3, q4⟩ := hP.wf.ordsOk r hr
            have : q = pair := hP.wf.key_pair q1 hp2 (by rw [q2, e1])
            subst this
            rw [← r5]; exact ⟨q3, q4⟩
          have hA := applyMatchResult_spec hP.wf (pair := pair) hu1 u2 hfr h3
          refine Or.inr ⟨out, hout, ?_, ?_, ?_, ?_⟩
          · intro a d
            refine (ledger_congr (s := s3) rfl rfl rfl rfl a d).trans ?_
            rw [applyMatchResult_ledger hP.wf hu1 hx u2 hfr h3, hL2, hprm]
          · show (fun id => s3.shortfall id + _) = _
            rw [hA.frame.shortfall, hsf]
          · intro o ho e1
            rcases hA.fills o ho with h5 | ⟨r, h5, y, hy, hf⟩
            · obtain ⟨o0, h6, h7⟩ := hback o h5
              exact ⟨o0, h6, Or.inl h7⟩
            · obtain ⟨o0, h6, h7⟩ := hback r h5
              exact ⟨o0, h6, Or.inr ⟨r, h7, y, hy, hf⟩⟩
          · show upsert Pair.key _ s3.pairs = _
            rw [hA.frame.pairs, hP.pairs, hC.frame.pairs]

/-- Neither the escrow account of a pair nor the reserve account of a pool. -/
def Addr.Outside (a : Addr) : Prop := ∀ id, a ≠ .pairEscrow id ∧ a ≠ .poolReserve id

theorem flow_user {pair : Pair} {y : Order} {a : Addr} (ha : Addr.Outside a) {d : Denom} : flow pair y a d = 0 := by
  unfold flow
  rw [if_neg (ha pair.id).1]
  cases y.kind with
  | user _ _ => simp
  | pool id => simp only; rw [if_neg (ha id).2]; rfl

theorem total_zero {α : Type} {f : α → Int} : ∀ {l : List α}, (∀ x ∈ l, f x = 0) → total f l = 0 := by
  intro l h
  unfold total
  apply List.sum_eq_zero
  intro x hx
  obtain ⟨c, hc, rfl⟩ := List.mem_map.1 hx
  exact h c hc

theorem matching_ledger_user (hw : WF s) {env : Env} {pair : Pair} (hp : pair ∈ s.pairs) (h : executeMatching env pair s = some s')
    {a : Addr} (ha : Addr.Outside a) (hu : s.params.dustCollector ≠ a) (d : Denom) : ledger s' a d = ledger s a d := by
  obtain ⟨pools, _, _, _, hc⟩ := (executeMatching_flow hw hp h).cases
  rcases hc with ⟨_, h1, _⟩ | ⟨out, _, h1, _⟩
  · exact h1 _ _
  · rw [h1, total_zero (fun y _ => by rw [flow_user ha]; simp)]
    have : transferEffect ⟨.pairEscrow pair.id, s.params.dustCollector, [⟨pair.quote, out.diff⟩]⟩ a d = 0 := by
      unfold transferEffect
      rw [if_neg (fun e => hu e.symm), if_neg (ha pair.id).1]; ring
    omega

theorem matching_all_ledger_user (hw : WF s) {env : Env} (h : forEach (executeMatching env) s.pairs s = some s')
    {a : Addr} (ha : Addr.Outside a) (hu : s.params.dustCollector ≠ a) (d : Denom) : ledger s' a d = ledger s a d := by
  have := forEach_inv (f := executeMatching env) (fun xs t => Matching s xs t ∧ ledger t a d = ledger s a d) ?_ _ _ _ ?_ h
  · exact this.2
  · rintro x xs t t' ⟨h1, h2⟩ e
    refine ⟨matching_step h1 e, ?_⟩
    rw [matching_ledger_user h1.wf (h1.pending x (by simp)).1 e ha (by rw [h1.params]; exact hu), h2]
  · exact ⟨matching_init hw, rfl⟩

theorem expire_init (hw : WF s) : Expiring s s.orders s :=
  ⟨hw, Relation.ReflTransGen.refl, ⟨hw.ordersS.nodup, fun x hx => hx⟩, SameFrame.refl s,
    fun o ho => ⟨o, ho, Or.inl rfl⟩, fun o ho => Or.inl ho⟩

theorem expire_step_ledger {s0 : State} {x : OrderRec} {xs : List OrderRec} {t t' : State} (h2 : Expiring s0 (x :: xs) t)
    (e : expireOrder x t = some t') (a : Addr) (d : Denom) : ledger t' a d = ledger t a d := by
  have hx : x ∈ t.orders := h2.pending.2 x (by simp)
  have hfin : finishOrder x .expired t = some t' → ledger t' a d = ledger t a d := by
    intro ef
    cases hd : x.done with
    | true => rw [finishOrder_done hd ef]
    | false => exact finish_ledger_same h2.wf hx hd rfl ef a d
  unfold expireOrder at e
  split at e
  · exact hfin e
  · split at e
    · exact hfin e
    · have e := Option.some.inj e
      subst e; rfl

theorem expire_ledger (hw : WF s) (h : forEach expireOrder s.orders s = some s') (a : Addr) (d : Denom) : ledger s' a d = ledger s a d := by
  have := forEach_inv (f := expireOrder) (fun xs t => ((∀ x ∈ xs, x ∈ s.orders) ∧ Expiring s xs t) ∧ ledger t a d = ledger s a d) (by
      rintro x xs t t' ⟨⟨h1, h2⟩, hl⟩ e
      exact ⟨⟨fun y hy => h1 y (by simp [hy]), expire_step h2 (h1 x (by simp)) e⟩, (expire_step_ledger h2 e a d).trans hl⟩) _ _ _ ?_ h
  · exact this.2
  · exact ⟨⟨fun x hx => hx, expire_init hw⟩, rfl⟩

theorem executeDeposit_ledger (hw : WF s) {env : Env} {r : DepReq} (hr : r ∈ s.deposits) (hst : r.status = .notExecuted)
    (h : executeDeposit env r s = some s') (a : Addr) (d : Denom) : ledger s' a d = ledger s a d := by
  obtain ⟨pool, pair, p1, p2, q1, q2, hcase⟩ := executeDeposit_spec hw hr hst h
  rcases hcase with ⟨t, b, ht, rfl, hb, hbal⟩ | ⟨hdis, ax, ay, pc, b1, b, hpos, hdep, x1, x2, y1, y2, rfl, hm, hb, hbal⟩
  · have e1 : t.orders = s.orders ∧ t.deposits = s.deposits ∧ t.withdraws = s.withdraws := by
      rcases ht with rfl | rfl <;> exact ⟨rfl, rfl, rfl⟩
    unfold ledger
    simp only [State.setDeposit]
    rw [e1.1, e1.2.1, e1.2.2, total_old hw.depsS (old := r) _ hr (by rfl), hbal]
    unfold depositPart transferEffect
    rw [hst]
    simp only
    by_cases e2 : a = .user r.depositor <;> by_cases e3 : a = .globalEscrow <;> simp [e2, e3] <;> ring
  · have hnd := (hw.deps r hr).2.2.2.1
    have hne := (hw.pairNe pair q1).1
    have href := refund_total (coins := r.coins) (accepted := [⟨pair.quote, ax⟩, ⟨pair.base, ay⟩]) hnd (by
        intro c hc
        simp only [List.mem_cons, List.not_mem_nil, or_false] at hc
        rcases hc with rfl | rfl
        · exact x1
        · exact y1) (by
        intro c hc
        simp only [List.mem_cons, List.not_mem_nil, or_false] at hc
        rcases hc with rfl | rfl
        · simp only [amountOf_cons, amountOf_nil, if_true, if_neg hne]; omega
        · simp only [amountOf_cons, amountOf_nil, if_true, if_neg (show ¬ pair.quote = pair.base from fun e => hne e.symm)]; omega) d
    unfold ledger
    simp only [State.setDeposit]
    rw [total_old hw.depsS (old := r) _ hr (by rfl), hbal, (mint_some hm).2.1]
    unfold depositPart transferEffect
    rw [hst, p2]
    simp only [amountOf_single]
    rw [← href]
    generalize amountOf [⟨pair.quote, ax⟩, ⟨pair.base, ay⟩] d = A
    generalize amountOf (coinsSub r.coins [⟨pair.quote, ax⟩, ⟨pair.base, ay⟩]) d = B
    clear href h hbal hb hm hdep
    by_cases e2 : a = .user r.depositor <;> by_cases e3 : a = .globalEscrow <;> by_cases e4 : a = .poolReserve r.poolId <;>
      by_cases e5 : a = .dexModule <;> by_cases e6 : d = .pool r.poolId <;> simp_all [eq_comm (a := d)] <;> omega

theorem deposit_all_ledger (hw : WF s) {env : Env} (h : forEach (depositPass env) s.deposits s = some s') (a : Addr) (d : Denom) :
    ledger s' a d = ledger s a d := by
  have := forEach_inv (f := depositPass env) (fun xs t => Depositing s xs t ∧ ledger t a d = ledger s a d) ?_ _ _ _ ?_ h
  · exact this.2
  · rintro x xs t t' ⟨h1, h2⟩ e
    refine ⟨deposit_step h1 e, ?_⟩
    unfold depositPass at e
    split at e
    · rename_i hst
      exact (executeDeposit_ledger h1.wf (h1.pending x (by simp)) hst e a d).trans h2
    · have e := Option.some.inj e
      subst e; exact h2
  · exact ⟨⟨hw, Relation.ReflTransGen.refl, hw.depsS.nodup, fun x hx => hx, rfl, rfl, PassFrame.refl s, fun r hr => Or.inl hr⟩, rfl⟩

theorem executeWithdraw_ledger (hw : WF s) {env : Env} {r : WdReq} (hr : r ∈ s.withdraws) (hst : r.status = .notExecuted)
    (h : executeWithdraw env r s = some s') (a : Addr) (d : Denom) : ledger s' a d = ledger s a d := by
  obtain ⟨pool, pair, p1, p2, q1, q2, hcase⟩ := executeWithdraw_spec hw hr hst h
  rcases hcase with ⟨t, b, ht, rfl, hb, hbal⟩ | ⟨hdis, x, y, b1, b2, hxy, hwd, hx, hy, hb, hbal, hburn, rfl⟩
  · have e1 : t.orders = s.orders ∧ t.deposits = s.deposits ∧ t.withdraws = s.withdraws := by
      rcases ht with rfl | rfl <;> exact ⟨rfl, rfl, rfl⟩
    unfold ledger
    simp only [State.setWithdraw]
    rw [e1.1, e1.2.1, e1.2.2, total_old hw.wdsS (old := r) _ hr (by rfl), hbal]
    unfold withdrawPart transferEffect
    rw [hst]
    rcases hc : r.coin with ⟨cd, ca⟩
    simp only [amountOf_single]
    by_cases e2 : a = .user r.withdrawer <;> by_cases e3 : a = .globalEscrow <;> by_cases e4 : cd = d <;> simp [e2, e3, e4, eq_comm (a := d)] <;> ring
  · have hden := (hw.wds r hr).2.2.2
    have hbk : ∀ st : State, (st = { s with bank := b2 }.markDisabled pool ∨ st = { s with bank := b2 }) →
        ledger (st.setWithdraw { r with withdrawn := [⟨pair.quote, x⟩, ⟨pair.base, y⟩], status := .succeeded }) a d = ledger s a d := by
      intro st hs
      have e1 : st.orders = s.orders ∧ st.deposits = s.deposits ∧ st.withdraws = s.withdraws ∧ st.bank = b2 := by
        rcases hs with rfl | rfl <;> exact ⟨rfl, rfl, rfl, rfl⟩
      unfold ledger
      simp only [State.setWithdraw]
      rw [e1.1, e1.2.1, e1.2.2.1, e1.2.2.2, total_old hw.wdsS (old := r) _ hr (by rfl), (burn_some hburn).2.2.1, hbal]
      unfold withdrawPart transferEffect
      rw [hst, p2]
      rcases hc : r.coin with ⟨cd, ca⟩
      rw [hc] at hden
      simp only at hden
      subst hden
      simp only [amountOf_single]
      generalize amountOf [⟨pair.quote, x⟩, ⟨pair.base, y⟩] d = A
      clear h hbal hb hburn hwd e1 hs
      by_cases e2 : a = .user r.withdrawer <;> by_cases e3 : a = .globalEscrow <;> by_cases e4 : a = .poolReserve r.poolId <;>
        by_cases e5 : a = .dexModule <;> by_cases e6 : d = .pool r.poolId <;> simp_all [eq_comm (a := d)] <;> omega
    split
    · exact hbk _ (Or.inl rfl)
    · exact hbk _ (Or.inr rfl)

theorem withdraw_all_ledger (hw : WF s) {env : Env} (h : forEach (withdrawPass env) s.withdraws s = some s') (a : Addr) (d : Denom) :
    ledger s' a d = ledger s a d := by
  have := forEach_inv (f := withdrawPass env) (fun xs t => Withdrawing s xs t ∧ ledger t a d = ledger s a d) ?_ _ _ _ ?_ h
  · exact this.2
  · rintro x xs t t' ⟨h1, h2⟩ e
    refine ⟨withdraw_step h1 e, ?_⟩
    unfold withdrawPass at e
    split at e
    · rename_i hst
      exact (executeWithdraw_ledger h1.wf (h1.pending x (by simp)) hst e a d).trans h2
    · have e := Option.some.inj e
      subst e; exact h2
  · exact ⟨⟨hw, Relation.ReflTransGen.refl, hw.wdsS.nodup, fun x hx => hx, rfl, rfl, PassFrame.refl s, fun r hr => Or.inl hr⟩, rfl⟩

end Verif.Dex

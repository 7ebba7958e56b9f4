import Verif.Proofs.DecompApply
/-! # A whole batch as a sequence of elementary changes -/
namespace Verif.Dex
open Verif Verif.Amm Verif.Spec

variable {s s' : State}

/-- What the matching of one pair does. -/
structure Matched (pair : Pair) (s s' : State) : Prop where
  wf : WF s'
  reach : Reach s s'
  pairs : ∃ lp, s'.pairs = upsert Pair.key { pair with lastPrice := lp, batchId := pair.batchId + 1 } s.pairs
  params : s'.params = s.params
  deposits : s'.deposits = s.deposits
  withdraws : s'.withdraws = s.withdraws
  lastPairId : s'.lastPairId = s.lastPairId
  lastPoolId : s'.lastPoolId = s.lastPoolId
  time : s'.time = s.time
  height : s'.height = s.height
  others : ∀ o, o.pairId ≠ pair.id → (o ∈ s'.orders ↔ o ∈ s.orders)
  fresh : ∀ o ∈ s'.orders, o.pairId = pair.id → o.status ≠ .notExecuted
  back : ∀ o ∈ s'.orders, o.pairId = pair.id → ∃ o0 ∈ s.orders, SameOrder o0 o ∧ (o.done = false → o0.done = false) ∧
    (o0.status = .notExecuted → o.done = true → o.openAmt = 0) ∧
    (o.done = false → o.expiredAt s.time = true → o0.status = .notExecuted)

theorem SameOrder.expired {a b : OrderRec} (h : SameOrder a b) (t : Int) : b.expiredAt t = a.expiredAt t := by
  unfold SameOrder at h
  unfold OrderRec.expiredAt
  rw [h.2.2.2.2.2.2.2.2.2.2.2.2]

theorem CollectRel.same {t : Int} {a b : OrderRec} (h : CollectRel t a b) : SameOrder a b := by
  rcases h with rfl | ⟨_, rfl⟩ | ⟨_, _, _, rfl⟩ <;> exact SameOrder.refl _

theorem CollectRel.live {t : Int} {a b : OrderRec} (h : CollectRel t a b) (hb : b.done = false) : a.done = false := by
  rcases h with rfl | ⟨h1, _⟩ | ⟨h1, _⟩
  · exact hb
  · unfold OrderRec.done; rw [h1]; rfl
  · exact h1

theorem CollectRel.new {t : Int} {a b : OrderRec} (h : CollectRel t a b) (ha : a.status = .notExecuted) : b.done = false := by
  rcases h with rfl | ⟨_, rfl⟩ | ⟨_, h2, _⟩
  · unfold OrderRec.done; rw [ha]; rfl
  · rfl
  · exact absurd ha h2

/-- A live order of the pair after the collection of orders is in the book, and was new if it is past its expiry. -/
theorem Collecting.expired {pid : Nat} {st : State × List Order} (h : Collecting pid s [] st) {o : OrderRec} (ho : o ∈ st.1.orders)
    (hp : o.pairId = pid) (hd : o.done = false) (he : o.expiredAt s.time = true) :
    ∃ o0 ∈ s.orders, o0.status = .notExecuted ∧ SameOrder o0 o := by
  rcases h.all o ho hp hd with hm | hm
  · cases hm
  · obtain ⟨r, r1, r2, r3, r4, r5, r6⟩ := h.src _ hm
    have : r = o := h.wf.ordersS.inj r1 ho (by
      have e := congrArg userId r5
      rw [userId_new, userId_new] at e
      injection e with e
      simp [OrderRec.key, r2, hp, e])
    subst this
    exact r6 he

theorem executeMatching_spec (hw : WF s) {env : Env} {pair : Pair} (hp : pair ∈ s.pairs) (h : executeMatching env pair s = some s') :
    Matched pair s s' := by
  unfold executeMatching at h
  split at h
  · cases h
  · rename_i s1 os hc
    have hC := collect_all hw pair.id hc
    split at h
    · cases h
    · rename_i s2 pools hpl
      have hP := collectPool_all hC.wf hpl
      have hfr : ∀ o ∈ s2.orders, o.pairId = pair.id → o.status ≠ .notExecuted := by
        intro o ho e1 e2
        rw [hP.orders] at ho
        cases hC.fresh o ho e1 e2
      have hp2 : pair ∈ s2.pairs := by rw [hP.pairs]; rw [hC.frame.pairs]; exact hp
      have hoth : ∀ o, o.pairId ≠ pair.id → (o ∈ s2.orders ↔ o ∈ s.orders) := by
        intro o ho; rw [hP.orders]; exact hC.others o ho
      have hback : ∀ o ∈ s2.orders, o.pairId = pair.id → ∃ o0 ∈ s.orders, CollectRel s.time o0 o ∧
          (o.done = false → o.expiredAt s.time = true → o0.status = .notExecuted) := by
        intro o ho e1
        rw [hP.orders] at ho
        obtain ⟨o0, h1, h2⟩ := hC.back o ho
        refine ⟨o0, h1, h2, ?_⟩
        intro e2 e3
        obtain ⟨r0, k1, k2, k3⟩ := hC.expired ho e1 e2 e3
        have : r0 = o0 := hw.ordersS.inj k1 h1 (by rw [← k3.key, ← h2.same.key])
        rw [← this]; exact k2
      have hr2 : Reach s s2 := hC.reach.trans hP.reach
      split at h
      · cases h
      · -- no match
        have h := Option.some.inj h
        subst h
        have ha : Atom s2 (s2.setPair { pair with batchId := pair.batchId + 1 }) :=
          .nextBatch pair pair.lastPrice s2.shortfall hp2 hfr
        refine ⟨atom_wf hP.wf ha, hr2.tail ha, ⟨pair.lastPrice, ?_⟩, ?_, ?_, ?_, ?_, ?_, ?_, ?_, hoth, hfr, ?_⟩
        · show upsert Pair.key _ s2.pairs = _
          rw [show s2.pairs = s1.pairs from hP.pairs, show s1.pairs = s.pairs from hC.frame.pairs]
        · exact hP.params.trans hC.frame.params
        · exact hP.deposits.trans hC.frame.deposits
        · exact hP.withdraws.trans hC.frame.withdraws
        · exact hP.lastPairId.trans hC.frame.lastPairId
        · exact hP.lastPoolId.trans hC.frame.lastPoolId
        · exact hP.time.trans hC.frame.time
        · exact hP.height.trans hC.frame.height
        · intro o ho e1
          obtain ⟨o0, h1, h2, h3⟩ := hback o ho e1
          exact ⟨o0, h1, h2.same, h2.live, fun e2 e3 => (by rw [h2.new e2] at e3; cases e3), h3⟩
      · rename_i out hout
        split at h
        · cases h
        · rename_i s3 h3
          simp only at h
          have h := Option.some.inj h
          subst h
          obtain ⟨pos, h', k1, k2, k3⟩ := keeperMatch_ids hout
          obtain ⟨u1, u2⟩ := matched_users (fun o ho => (k1 o ho).imp fun _ h => h.2) hC.distinct k2
          rw [← k3] at u1 u2
          have hA := applyMatchResult_spec hP.wf (pair := pair) (by
            intro x hx oid b hk
            obtain ⟨y, y1, y2, _⟩ := u1 x hx oid b hk
            obtain ⟨r, r1, r2, r3, r4, r5, _⟩ := hC.src y y1
            refine ⟨r, by rw [hP.orders]; exact r1, r2, ?_, r3⟩
            rw [r5, hk] at y2
            simp only [newUserOrder, newBaseOrder, OKind.user.injEq] at y2
            exact y2.1) u2 hfr h3
          have hp3 : pair ∈ s3.pairs := by rw [hA.frame.pairs]; exact hp2
          have ha := Atom.nextBatch (s := s3) pair (some out.price)
            (fun id => s3.shortfall id + (if id = pair.id then baseImbalance out.orders else 0)) hp3 hA.fresh
          refine ⟨atom_wf hA.wf ha, (hr2.trans hA.reach).tail ha, ⟨some out.price, ?_⟩, ?_, ?_, ?_, ?_, ?_, ?_, ?_, ?_, hA.fresh, ?_⟩
          · show upsert Pair.key _ s3.pairs = _
            rw [hA.frame.pairs, show s2.pairs = s1.pairs from hP.pairs, show s1.pairs = s.pairs from hC.frame.pairs]
          · exact hA.frame.params.trans (hP.params.trans hC.frame.params)
          · exact hA.frame.deposits.trans (hP.deposits.trans hC.frame.deposits)
          · exact hA.frame.withdraws.trans (hP.withdraws.trans hC.frame.withdraws)
          · exact hA.frame.lastPairId.trans (hP.lastPairId.trans hC.frame.lastPairId)
          · exact hA.frame.lastPoolId.trans (hP.lastPoolId.trans hC.frame.lastPoolId)
          · exact hA.frame.time.trans (hP.time.trans hC.frame.time)
          · exact hA.frame.height.trans (hP.height.trans hC.frame.height)
          · intro o ho
            rw [← hoth o ho]
            constructor
            · intro h1
              obtain ⟨o0, b1, b2, b3, b4, b5⟩ := hA.back o h1
              by_contra hc
              have : o0 ∈ s3.orders := hA.keep o0 b1 (fun e => by
                unfold SameOrder at b2; rw [b2.2.2.1] at ho; exact absurd e ho)
              have := hA.wf.ordersS.inj this h1 b2.key.symm
              rw [this] at b1; exact hc b1
            · intro h1
              exact hA.keep o h1 (fun e => absurd e ho)
          · intro o ho e1
            obtain ⟨o1, b1, b2, b3, b4, b5⟩ := hA.back o ho
            obtain ⟨o0, h1, h2, h3⟩ := hback o1 b1 (by unfold SameOrder at b2; rw [← b2.2.2.1]; exact e1)
            refine ⟨o0, h1, h2.same.trans b2, fun e => h2.live (b3 e), ?_, ?_⟩
            · intro e2 e3
              exact b5 e3 (h2.new e2)
            · intro e2 e3
              exact h3 (b3 e2) (by rw [← b2.expired]; exact e3)

/-- Frame of the passes after the matching. -/
structure PassFrame (s t : State) : Prop where
  params : t.params = s.params
  pairs : t.pairs = s.pairs
  lastPairId : t.lastPairId = s.lastPairId
  lastPoolId : t.lastPoolId = s.lastPoolId
  time : t.time = s.time
  height : t.height = s.height
  shortfall : t.shortfall = s.shortfall

theorem PassFrame.refl (s : State) : PassFrame s s := ⟨rfl, rfl, rfl, rfl, rfl, rfl, rfl⟩
theorem PassFrame.trans {a b c : State} (h : PassFrame a b) (h' : PassFrame b c) : PassFrame a c :=
  ⟨h'.params.trans h.params, h'.pairs.trans h.pairs, h'.lastPairId.trans h.lastPairId, h'.lastPoolId.trans h.lastPoolId,
    h'.time.trans h.time, h'.height.trans h.height, h'.shortfall.trans h.shortfall⟩

theorem _root_.Verif.Spec.SameFrame.pass {s t : State} (h : SameFrame s t) : PassFrame s t :=
  ⟨h.params, h.pairs, h.lastPairId, h.lastPoolId, h.time, h.height, h.shortfall⟩

/-- Invariant of the matching pass. -/
structure Matching (s0 : State) (xs : List Pair) (t : State) : Prop where
  wf : WF t
  reach : Reach s0 t
  nodup : xs.Nodup
  inj : ∀ p ∈ s0.pairs, ∀ q ∈ s0.pairs, p.id = q.id → p = q
  pending : ∀ x ∈ xs, x ∈ t.pairs ∧ x ∈ s0.pairs
  doneP : ∀ p ∈ s0.pairs, p ∉ xs → ∃ lp, { p with lastPrice := lp, batchId := p.batchId + 1 } ∈ t.pairs
  params : t.params = s0.params
  deposits : t.deposits = s0.deposits
  withdraws : t.withdraws = s0.withdraws
  lastPairId : t.lastPairId = s0.lastPairId
  lastPoolId : t.lastPoolId = s0.lastPoolId
  time : t.time = s0.time
  height : t.height = s0.height
  same : ∀ o, (∃ x ∈ xs, x.id = o.pairId) → (o ∈ t.orders ↔ o ∈ s0.orders)
  fresh : ∀ o ∈ t.orders, o.status = .notExecuted → ∃ x ∈ xs, x.id = o.pairId
  back : ∀ o ∈ t.orders, ∃ o0 ∈ s0.orders, SameOrder o0 o ∧ (o.done = false → o0.done = false) ∧
    (o0.status = .notExecuted → o.done = true → o.openAmt = 0) ∧
    (o.done = false → o.expiredAt s0.time = true → o0.status = .notExecuted ∨ ∃ x ∈ xs, x.id = o.pairId)

theorem matching_step {env : Env} {s0 : State} {x : Pair} {xs : List Pair} {t t' : State} (h : Matching s0 (x :: xs) t)
    (e : executeMatching env x t = some t') : Matching s0 xs t' := by
  have hx := h.pending x (by simp)
  have hnd := List.nodup_cons.1 h.nodup
  have m := executeMatching_spec h.wf hx.1 e
  obtain ⟨lp, hlp⟩ := m.pairs
  have hm : ∀ q, q ∈ t'.pairs ↔ q = { x with lastPrice := lp, batchId := x.batchId + 1 } ∨ (q ∈ t.pairs ∧ q ≠ x) := by
    intro q; rw [hlp]; exact h.wf.mem_setPair hx.1 rfl
  have hne : ∀ y ∈ xs, y.id ≠ x.id := fun y hy e2 => hnd.1 (h.wf.key_pair (h.pending y (by simp [hy])).1 hx.1 e2 ▸ hy)
  refine ⟨m.wf, h.reach.trans m.reach, hnd.2, h.inj, ?_, ?_, m.params.trans h.params, m.deposits.trans h.deposits,
    m.withdraws.trans h.withdraws, m.lastPairId.trans h.lastPairId, m.lastPoolId.trans h.lastPoolId, m.time.trans h.time,
    m.height.trans h.height, ?_, ?_, ?_⟩
  · intro y hy
    have := h.pending y (by simp [hy])
    exact ⟨(hm y).2 (Or.inr ⟨this.1, fun e2 => hnd.1 (e2 ▸ hy)⟩), this.2⟩
  · intro p hp hpx
    by_cases e2 : p = x
    · subst e2
      exact ⟨lp, (hm _).2 (Or.inl rfl)⟩
    · obtain ⟨lp', h'⟩ := h.doneP p hp (by simp [e2, hpx])
      refine ⟨lp', (hm _).2 (Or.inr ⟨h', ?_⟩)⟩
      intro e3
      have hid := congrArg Pair.id e3
      exact e2 (h.inj p hp x hx.2 hid)
  · rintro o ⟨y, hy, e2⟩
    rw [m.others o (by rw [← e2]; exact hne y hy)]
    exact h.same o ⟨y, by simp [hy], e2⟩
  · intro o ho e2
    by_cases e3 : o.pairId = x.id
    · exact absurd e2 (m.fresh o ho e3)
    · obtain ⟨y, hy, e4⟩ := h.fresh o ((m.others o e3).1 ho) e2
      rcases List.mem_cons.1 hy with rfl | hy
      · exact absurd e4.symm e3
      · exact ⟨y, hy, e4⟩
  · intro o ho
    by_cases e3 : o.pairId = x.id
    · obtain ⟨o1, k1, k2, k3, k4, k5⟩ := m.back o ho e3
      have e4 : o1.pairId = x.id := by unfold SameOrder at k2; rw [← k2.2.2.1]; exact e3
      have k1' := (h.same o1 ⟨x, by simp, e4.symm⟩).1 k1
      exact ⟨o1, k1', k2, k3, k4, fun a b => Or.inl (k5 a (by rw [h.time]; exact b))⟩
    · obtain ⟨o0, k1, k2, k3, k4, k5⟩ := h.back o ((m.others o e3).1 ho)
      refine ⟨o0, k1, k2, k3, k4, fun a b => ?_⟩
      rcases k5 a b with k | ⟨y, hy, e4⟩
      · exact Or.inl k
      · rcases List.mem_cons.1 hy with rfl | hy
        · exact absurd e4.symm e3
        · exact Or.inr ⟨y, hy, e4⟩

theorem matching_init (hw : WF s) : Matching s s.pairs s := by
  refine ⟨hw, Relation.ReflTransGen.refl, hw.pairsS.nodup, fun p hp q hq => hw.key_pair hp hq, fun x hx => ⟨hx, hx⟩,
    fun p hp hpx => absurd hp hpx, rfl, rfl, rfl, rfl, rfl, rfl, rfl, fun _ _ => Iff.rfl, ?_, ?_⟩
  · intro o ho _
    obtain ⟨_, _, p, hp, e, _⟩ := hw.ords o ho
    exact ⟨p, hp, e⟩
  · intro o ho
    refine ⟨o, ho, SameOrder.refl o, id, ?_, ?_⟩
    · intro e1 e2
      unfold OrderRec.done at e2; rw [e1] at e2; cases e2
    · intro _ _
      obtain ⟨_, _, p, hp, e, _⟩ := hw.ords o ho
      exact Or.inr ⟨p, hp, e⟩

theorem matching_all (hw : WF s) {env : Env} (h : forEach (executeMatching env) s.pairs s = some s') : Matching s [] s' :=
  forEach_inv (f := executeMatching env) (fun xs t => Matching s xs t) (fun x xs t t' => matching_step) _ _ _ (matching_init hw) h

/-- Invariant of the expiry pass. -/
structure Expiring (s0 : State) (xs : List OrderRec) (t : State) : Prop where
  wf : WF t
  reach : Reach s0 t
  pending : Pending xs t
  frame : SameFrame s0 t
  back : ∀ o ∈ t.orders, ∃ o0 ∈ s0.orders, o = o0 ∨ (o0.done = false ∧ o = { o0 with status := .expired } ∧
    (o0.expiredAt s0.time = true ∨ isTooSmallOrderAmount o0.openAmt o0.price = true))
  ok : ∀ o ∈ t.orders, o ∈ xs ∨ o.done = true ∨ (o.expiredAt s0.time = false ∧ isTooSmallOrderAmount o.openAmt o.price = false)

theorem expire_step {s0 : State} {x : OrderRec} {xs : List OrderRec} {t t' : State} (h : Expiring s0 (x :: xs) t)
    (horig : x ∈ s0.orders) (e : expireOrder x t = some t') : Expiring s0 xs t' := by
  have hx : x ∈ t.orders := h.pending.2 x (by simp)
  have hskip : ∀ (_ : x.done = true ∨ (x.expiredAt s0.time = false ∧ isTooSmallOrderAmount x.openAmt x.price = false)),
      Expiring s0 xs t := by
    intro hc
    refine { h with pending := h.pending.tail, ok := ?_ }
    intro o ho
    rcases h.ok o ho with h1 | h1
    · rcases List.mem_cons.1 h1 with rfl | h1
      · exact Or.inr hc
      · exact Or.inl h1
    · exact Or.inr h1
  have hfin : ∀ (_ : x.expiredAt s0.time = true ∨ isTooSmallOrderAmount x.openAmt x.price = true)
      (_ : finishOrder x .expired t = some t'), Expiring s0 xs t' := by
    intro hc ef
    by_cases hd : x.done = true
    · rw [finishOrder_done hd ef]; exact hskip (Or.inl hd)
    · have hd : x.done = false := by simpa using hd
      have ha := finishOrder_atom hx hd (SameOrder.refl x) hd rfl (h.wf.ordsOk x hx).1 ef
      have hos := (finishOrder_frame hd ef).1
      have hm : ∀ o, o ∈ t'.orders ↔ o = { x with status := .expired } ∨ (o ∈ t.orders ∧ o ≠ x) := by
        intro o; rw [hos]; exact h.wf.mem_setOrder hx rfl
      refine ⟨atom_wf h.wf ha, h.reach.tail ha, h.pending.upsert h.wf hos rfl, h.frame.trans (finishOrder_same hd ef), ?_, ?_⟩
      · intro o ho
        rcases (hm o).1 ho with rfl | ⟨h1, _⟩
        · exact ⟨x, horig, Or.inr ⟨hd, rfl, hc⟩⟩
        · exact h.back o h1
      · intro o ho
        rcases (hm o).1 ho with rfl | ⟨h1, h2⟩
        · exact Or.inr (Or.inl rfl)
        · rcases h.ok o h1 with h3 | h3
          · rcases List.mem_cons.1 h3 with rfl | h3
            · exact absurd rfl h2
            · exact Or.inl h3
          · exact Or.inr h3
  unfold expireOrder at e
  rw [matchable_iff] at e
  by_cases hd : x.done = true
  · unfold OrderRec.done at hd
    rw [hd] at e
    simp only [Bool.not_true, Bool.false_and, Bool.false_eq_true, if_false] at e
    split at e
    · rw [finishOrder_done hd e]; exact hskip (Or.inl hd)
    · have e := Option.some.inj e
      subst e; exact hskip (Or.inl hd)
  · have hd : x.done = false := by simpa using hd
    have hd' : x.status.shouldBeDeleted = false := hd
    rw [hd'] at e
    simp only [Bool.not_false, Bool.true_and] at e
    rw [h.frame.time] at e
    split at e
    · rename_i hc; exact hfin (Or.inl hc) e
    · rename_i hc1
      split at e
      · rename_i hc; exact hfin (Or.inr hc) e
      · rename_i hc2
        have e := Option.some.inj e
        subst e
        exact hskip (Or.inr ⟨by simpa using hc1, by simpa using hc2⟩)

theorem expire_all (hw : WF s) (h : forEach expireOrder s.orders s = some s') : Expiring s [] s' := by
  have := forEach_inv (f := expireOrder) (fun xs t => (∀ x ∈ xs, x ∈ s.orders) ∧ Expiring s xs t) (by
      rintro x xs t t' ⟨h1, h2⟩ e
      exact ⟨fun y hy => h1 y (by simp [hy]), expire_step h2 (h1 x (by simp)) e⟩) _ _ _ ?_ h
  · exact this.2
  · refine ⟨fun x hx => hx, hw, Relation.ReflTransGen.refl, ⟨hw.ordersS.nodup, fun x hx => hx⟩, SameFrame.refl s,
      fun o ho => ⟨o, ho, Or.inl rfl⟩, fun o ho => Or.inl ho⟩

/-- Invariant of the deposit pass. -/
structure Depositing (s0 : State) (xs : List DepReq) (t : State) : Prop where
  wf : WF t
  reach : Reach s0 t
  nodup : xs.Nodup
  pending : ∀ x ∈ xs, x ∈ t.deposits
  orders : t.orders = s0.orders
  withdraws : t.withdraws = s0.withdraws
  frame : PassFrame s0 t
  ok : ∀ r ∈ t.deposits, r ∈ xs ∨ r.status ≠ .notExecuted

theorem deposit_step {env : Env} {s0 : State} {x : DepReq} {xs : List DepReq} {t t' : State} (h : Depositing s0 (x :: xs) t)
    (e : depositPass env x t = some t') : Depositing s0 xs t' := by
  have hx := h.pending x (by simp)
  have hnd := List.nodup_cons.1 h.nodup
  unfold depositPass at e
  split at e
  · rename_i hst
    have hr := executeDeposit_reach h.wf hx hst e
    obtain ⟨r', hd, ho, hwd, hf, hk, hs'⟩ : ∃ r', t'.deposits = upsert DepReq.key r' t.deposits ∧ t'.orders = t.orders ∧
        t'.withdraws = t.withdraws ∧ PassFrame t t' ∧ r'.key = x.key ∧ r'.status ≠ .notExecuted := by
      obtain ⟨pool, pair, _, _, _, _, hc⟩ := executeDeposit_spec h.wf hx hst e
      rcases hc with ⟨u, b, hu, rfl, _⟩ | ⟨_, ax, ay, pc, b1, b, _, _, _, _, _, _, rfl, _⟩
      · rcases hu with rfl | rfl
        · exact ⟨_, rfl, rfl, rfl, ⟨rfl, rfl, rfl, rfl, rfl, rfl, rfl⟩, rfl, by simp⟩
        · exact ⟨_, rfl, rfl, rfl, ⟨rfl, rfl, rfl, rfl, rfl, rfl, rfl⟩, rfl, by simp⟩
      · exact ⟨_, rfl, rfl, rfl, ⟨rfl, rfl, rfl, rfl, rfl, rfl, rfl⟩, rfl, by simp⟩
    have hm : ∀ r, r ∈ t'.deposits ↔ r = r' ∨ (r ∈ t.deposits ∧ r ≠ x) := by
      intro r; rw [hd]; exact h.wf.mem_setDeposit hx hk
    refine ⟨reach_wf h.wf hr, h.reach.trans hr, hnd.2, ?_, ho.trans h.orders, hwd.trans h.withdraws, h.frame.trans hf, ?_⟩
    · intro y hy
      exact (hm y).2 (Or.inr ⟨h.pending y (by simp [hy]), fun e2 => hnd.1 (e2 ▸ hy)⟩)
    · intro r hr'
      rcases (hm r).1 hr' with rfl | ⟨h1, h2⟩
      · exact Or.inr hs'
      · rcases h.ok r h1 with h3 | h3
        · rcases List.mem_cons.1 h3 with rfl | h3
          · exact absurd rfl h2
          · exact Or.inl h3
        · exact Or.inr h3
  · rename_i hst
    have e := Option.some.inj e
    subst e
    refine { h with nodup := hnd.2, pending := fun y hy => h.pending y (by simp [hy]), ok := ?_ }
    intro r hr'
    rcases h.ok r hr' with h3 | h3
    · rcases List.mem_cons.1 h3 with rfl | h3
      · exact Or.inr hst
      · exact Or.inl h3
    · exact Or.inr h3

theorem deposit_all (hw : WF s) {env : Env} (h : forEach (depositPass env) s.deposits s = some s') : Depositing s [] s' := by
  refine forEach_inv (f := depositPass env) (fun xs t => Depositing s xs t) (fun x xs t t' => deposit_step) _ _ _ ?_ h
  exact ⟨hw, Relation.ReflTransGen.refl, hw.depsS.nodup, fun x hx => hx, rfl, rfl, PassFrame.refl s, fun r hr => Or.inl hr⟩

/-- Invariant of the withdraw pass. -/
structure Withdrawing (s0 : State) (xs : List WdReq) (t : State) : Prop where
  wf : WF t
  reach : Reach s0 t
  nodup : xs.Nodup
  pending : ∀ x ∈ xs, x ∈ t.withdraws
  orders : t.orders = s0.orders
  deposits : t.deposits = s0.deposits
  frame : PassFrame s0 t
  ok : ∀ r ∈ t.withdraws, r ∈ xs ∨ r.status ≠ .notExecuted

theorem withdraw_step {env : Env} {s0 : State} {x : WdReq} {xs : List WdReq} {t t' : State} (h : Withdrawing s0 (x :: xs) t)
    (e : withdrawPass env x t = some t') : Withdrawing s0 xs t' := by
  have hx := h.pending x (by simp)
  have hnd := List.nodup_cons.1 h.nodup
  unfold withdrawPass at e
  split at e
  · rename_i hst
    have hr := executeWithdraw_reach h.wf hx hst e
    obtain ⟨r', hd, ho, hwd, hf, hk, hs'⟩ : ∃ r', t'.withdraws = upsert WdReq.key r' t.withdraws ∧ t'.orders = t.orders ∧
        t'.deposits = t.deposits ∧ PassFrame t t' ∧ r'.key = x.key ∧ r'.status ≠ .notExecuted := by
      obtain ⟨pool, pair, _, _, _, _, hc⟩ := executeWithdraw_spec h.wf hx hst e
      rcases hc with ⟨u, b, hu, rfl, _⟩ | ⟨_, a, b, b1, b2, _, _, _, _, _, _, _, rfl⟩
      · rcases hu with rfl | rfl
        · exact ⟨_, rfl, rfl, rfl, ⟨rfl, rfl, rfl, rfl, rfl, rfl, rfl⟩, rfl, by simp⟩
        · exact ⟨_, rfl, rfl, rfl, ⟨rfl, rfl, rfl, rfl, rfl, rfl, rfl⟩, rfl, by simp⟩
      · split
        · exact ⟨_, rfl, rfl, rfl, ⟨rfl, rfl, rfl, rfl, rfl, rfl, rfl⟩, rfl, by simp⟩
        · exact ⟨_, rfl, rfl, rfl, ⟨rfl, rfl, rfl, rfl, rfl, rfl, rfl⟩, rfl, by simp⟩
    have hm : ∀ r, r ∈ t'.withdraws ↔ r = r' ∨ (r ∈ t.withdraws ∧ r ≠ x) := by
      intro r; rw [hd]; exact h.wf.mem_setWithdraw hx hk
    refine ⟨reach_wf h.wf hr, h.reach.trans hr, hnd.2, ?_, ho.trans h.orders, hwd.trans h.deposits, h.frame.trans hf, ?_⟩
    · intro y hy
      exact (hm y).2 (Or.inr ⟨h.pending y (by simp [hy]), fun e2 => hnd.1 (e2 ▸ hy)⟩)
    · intro r hr'
      rcases (hm r).1 hr' with rfl | ⟨h1, h2⟩
      · exact Or.inr hs'
      · rcases h.ok r h1 with h3 | h3
        · rcases List.mem_cons.1 h3 with rfl | h3
          · exact absurd rfl h2
          · exact Or.inl h3
        · exact Or.inr h3
  · rename_i hst
    have e := Option.some.inj e
    subst e
    refine { h with nodup := hnd.2, pending := fun y hy => h.pending y (by simp [hy]), ok := ?_ }
    intro r hr'
    rcases h.ok r hr' with h3 | h3
    · rcases List.mem_cons.1 h3 with rfl | h3
      · exact Or.inr hst
      · exact Or.inl h3
    · exact Or.inr h3

theorem withdraw_all (hw : WF s) {env : Env} (h : forEach (withdrawPass env) s.withdraws s = some s') : Withdrawing s [] s' := by
  refine forEach_inv (f := withdrawPass env) (fun xs t => Withdrawing s xs t) (fun x xs t t' => withdraw_step) _ _ _ ?_ h
  exact ⟨hw, Relation.ReflTransGen.refl, hw.wdsS.nodup, fun x hx => hx, rfl, rfl, PassFrame.refl s, fun r hr => Or.inl hr⟩

/-- What a batch does. -/
structure BatchDone (s s' : State) : Prop where
  wf : WF s'
  reach : Reach s s'
  params : s'.params = s.params
  time : s'.time = s.time
  height : s'.height = s.height
  lastPairId : s'.lastPairId = s.lastPairId
  lastPoolId : s'.lastPoolId = s.lastPoolId
  pairs : ∀ p ∈ s.pairs, ∃ lp, { p with lastPrice := lp, batchId := p.batchId + 1 } ∈ s'.pairs
  deposits : ∀ r ∈ s'.deposits, r.status ≠ .notExecuted
  withdraws : ∀ r ∈ s'.withdraws, r.status ≠ .notExecuted
  orders : ∀ o ∈ s'.orders, o.done = false → o.status ≠ .notExecuted ∧ o.expiredAt s.time = false ∧
    isTooSmallOrderAmount o.openAmt o.price = false

theorem executeRequests_spec (hw : WF s) {env : Env} (h : executeRequests env s = some s') : BatchDone s s' := by
  unfold executeRequests at h
  split at h
  · cases h
  · rename_i s1 h1
    have m1 := matching_all hw h1
    split at h
    · cases h
    · rename_i s2 h2
      have m2 := expire_all m1.wf h2
      split at h
      · cases h
      · rename_i s3 h3
        have m3 := deposit_all m2.wf h3
        have m4 := withdraw_all m3.wf h
        refine ⟨m4.wf, m1.reach.trans (m2.reach.trans (m3.reach.trans m4.reach)), ?_, ?_, ?_, ?_, ?_, ?_, ?_, ?_, ?_⟩
        · rw [m4.frame.params, m3.frame.params, m2.frame.params, m1.params]
        · rw [m4.frame.time, m3.frame.time, m2.frame.time, m1.time]
        · rw [m4.frame.height, m3.frame.height, m2.frame.height, m1.height]
        · rw [m4.frame.lastPairId, m3.frame.lastPairId, m2.frame.lastPairId, m1.lastPairId]
        · rw [m4.frame.lastPoolId, m3.frame.lastPoolId, m2.frame.lastPoolId, m1.lastPoolId]
        · intro p hp
          rw [m4.frame.pairs, m3.frame.pairs, m2.frame.pairs]
          exact m1.doneP p hp (by simp)
        · intro r hr
          rw [m4.deposits] at hr
          rcases m3.ok r hr with h5 | h5
          · cases h5
          · exact h5
        · intro r hr
          rcases m4.ok r hr with h5 | h5
          · cases h5
          · exact h5
        · intro o ho hd
          rw [m4.orders, m3.orders] at ho
          refine ⟨?_, ?_⟩
          · intro hc
            obtain ⟨o0, b1, b2⟩ := m2.back o ho
            rcases b2 with rfl | ⟨_, rfl, _⟩
            · obtain ⟨x, hx, _⟩ := m1.fresh o b1 hc
              cases hx
            · cases hc
          · rcases m2.ok o ho with h5 | h5 | h5
            · cases h5
            · rw [hd] at h5; cases h5
            · rw [m1.time] at h5; exact h5

end Verif.Dex

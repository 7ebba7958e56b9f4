import Verif.Proofs.Decompose
import Verif.Spec.Frame
/-! # `ExecuteMatching` as a sequence of elementary changes -/
namespace Verif.Dex
open Verif Verif.Amm Verif.Spec

variable {s s' : State}

/-- The id of a user order. -/
def userId (o : Order) : Option Nat := match o.kind with | .user id _ => some id | .pool _ => none

theorem userId_new (r : OrderRec) : userId (newUserOrder r) = some r.id := rfl

theorem newUserOrder_status (r : OrderRec) (st : OStatus) : newUserOrder { r with status := st } = newUserOrder r := rfl

theorem _root_.Verif.Spec.SameFrame.refl (s : State) : SameFrame s s := ⟨rfl, rfl, rfl, rfl, rfl, rfl, rfl, rfl, rfl, rfl⟩

theorem _root_.Verif.Spec.SameFrame.trans {a b c : State} (h : SameFrame a b) (h' : SameFrame b c) : SameFrame a c :=
  ⟨h'.params.trans h.params, h'.pairs.trans h.pairs, h'.pools.trans h.pools, h'.deposits.trans h.deposits,
    h'.withdraws.trans h.withdraws, h'.lastPairId.trans h.lastPairId, h'.lastPoolId.trans h.lastPoolId, h'.time.trans h.time,
    h'.height.trans h.height, h'.shortfall.trans h.shortfall⟩

theorem finishOrder_same {o : OrderRec} {status : OStatus} (hd : o.done = false) (h : finishOrder o status s = some s') :
    SameFrame s s' := by
  obtain ⟨_, h1, h2, h3, h4, h5, h6, h7, h8, h9, h10⟩ := finishOrder_frame hd h
  exact ⟨h3, h1, h2, h6, h7, h9, h10, h4, h5, h8⟩

/-- How the collection of orders changes an order record. -/
def CollectRel (t : Int) (o0 o : OrderRec) : Prop :=
  o = o0 ∨ (o0.status = .notExecuted ∧ o = { o0 with status := .notMatched }) ∨
    (o0.done = false ∧ o0.status ≠ .notExecuted ∧ o0.expiredAt t = true ∧ o = { o0 with status := .expired })

/-- Invariant of the loop that collects the orders of a pair. -/
structure Collecting (pid : Nat) (s0 : State) (xs : List OrderRec) (st : State × List Order) : Prop where
  wf : WF st.1
  reach : Reach s0 st.1
  pending : Pending xs st.1
  mine : ∀ x ∈ xs, x.pairId = pid
  fresh : ∀ o ∈ st.1.orders, o.pairId = pid → o.status = .notExecuted → o ∈ xs
  src : ∀ x ∈ st.2, ∃ r ∈ st.1.orders, r.pairId = pid ∧ r.done = false ∧ r.status ≠ .notExecuted ∧ x = newUserOrder r ∧
    (r.expiredAt s0.time = true → ∃ r0 ∈ s0.orders, r0.status = .notExecuted ∧ SameOrder r0 r)
  all : ∀ o ∈ st.1.orders, o.pairId = pid → o.done = false → o ∈ xs ∨ newUserOrder o ∈ st.2
  distinct : st.2.Pairwise (fun a b => userId a ≠ userId b)
  new : ∀ x ∈ st.2, ∀ y ∈ xs, userId x ≠ some y.id
  frame : SameFrame s0 st.1
  others : ∀ o, o.pairId ≠ pid → (o ∈ st.1.orders ↔ o ∈ s0.orders)
  orig : ∀ x ∈ xs, x ∈ s0.orders
  back : ∀ o ∈ st.1.orders, ∃ o0 ∈ s0.orders, CollectRel s0.time o0 o

theorem status_cases {o : OrderRec} (h : o.done = false) : o.status = .notExecuted ∨ o.status = .notMatched ∨ o.status = .partiallyMatched := by
  unfold OrderRec.done at h
  cases e : o.status <;> simp [e, OStatus.shouldBeDeleted, OStatus.isCanceledOrExpired] at h ⊢

theorem collect_step {pid : Nat} {s0 : State} {x : OrderRec} {xs : List OrderRec} {st st' : State × List Order}
    (h : Collecting pid s0 (x :: xs) st) (e : collectOrder x st = some st') : Collecting pid s0 xs st' := by
  obtain ⟨t, os⟩ := st
  have hx : x ∈ t.orders := h.pending.2 x (by simp)
  have hxp : x.pairId = pid := h.mine x (by simp)
  have hnd := List.nodup_cons.1 h.pending.1
  unfold collectOrder at e
  rw [matchable_iff] at e
  by_cases hd : x.done = true
  · -- finished order: skipped
    unfold OrderRec.done at hd
    rw [hd] at e
    simp only [Bool.not_true, Bool.false_eq_true, if_false, Option.some.injEq] at e
    subst e
    refine { h with pending := h.pending.tail, mine := fun y hy => h.mine y (by simp [hy]), fresh := ?_, all := ?_, new := ?_, orig := ?_ }
    · intro o ho e1 e2
      rcases List.mem_cons.1 (h.fresh o ho e1 e2) with rfl | hm
      · rw [e2] at hd; cases hd
      · exact hm
    · intro o ho e1 e2
      rcases h.all o ho e1 e2 with hm | hm
      · rcases List.mem_cons.1 hm with rfl | hm
        · unfold OrderRec.done at e2; rw [hd] at e2; cases e2
        · exact Or.inl hm
      · exact Or.inr hm
    · intro a ha y hy; exact h.new a ha y (by simp [hy])
    · intro y hy; exact h.orig y (by simp [hy])
  · have hd : x.done = false := by simpa using hd
    have hd' : x.status.shouldBeDeleted = false := hd
    rw [hd'] at e
    simp only [Bool.not_false, if_true] at e
    -- facts about replacing x by x'
    have general : ∀ (x' : OrderRec) (t' : State), Atom t t' → t'.orders = Dex.upsert OrderRec.key x' t.orders →
        SameOrder x x' → x'.status ≠ .notExecuted → SameFrame t t' → CollectRel s0.time x x' → ∀ extra : List Order,
        (∀ y ∈ extra, y = newUserOrder x' ∧ x'.done = false ∧
          (x'.expiredAt s0.time = true → ∃ r0 ∈ s0.orders, r0.status = .notExecuted ∧ SameOrder r0 x')) →
        extra.Pairwise (fun a b => userId a ≠ userId b) → (x'.done = false → newUserOrder x' ∈ extra) →
        Collecting pid s0 xs (t', os ++ extra) := by
      intro x' t' ha hos hs hst hf hrel extra hex hexd hall
      have hm : ∀ o, o ∈ t'.orders ↔ o = x' ∨ (o ∈ t.orders ∧ o ≠ x) := by
        intro o; rw [hos]; exact h.wf.mem_setOrder hx hs.key
      have hid : x'.id = x.id := by unfold SameOrder at hs; exact hs.2.1
      have hpid : x'.pairId = x.pairId := by unfold SameOrder at hs; exact hs.2.2.1
      refine ⟨atom_wf h.wf ha, h.reach.tail ha, h.pending.upsert h.wf hos hs.key, fun y hy => h.mine y (by simp [hy]), ?_, ?_, ?_,
        ?_, ?_, h.frame.trans hf, ?_, fun y hy => h.orig y (by simp [hy]), ?_⟩
      · intro o ho e1 e2
        rcases (hm o).1 ho with rfl | ⟨h1, h2⟩
        · exact absurd e2 hst
        · rcases List.mem_cons.1 (h.fresh o h1 e1 e2) with rfl | hm'
          · exact absurd rfl h2
          · exact hm'
      · intro y hy
        rcases List.mem_append.1 hy with hy | hy
        · obtain ⟨r, hr, r1, r2, r3, r4, r5⟩ := h.src y hy
          refine ⟨r, (hm r).2 (Or.inr ⟨hr, ?_⟩), r1, r2, r3, r4, r5⟩
          rintro rfl
          have := h.new y hy r (by simp)
          rw [r4] at this
          exact this rfl
        · obtain ⟨h1, h2, h3⟩ := hex y hy
          exact ⟨x', (hm x').2 (Or.inl rfl), hpid.trans hxp, h2, hst, h1, h3⟩
      · intro o ho e1 e2
        rcases (hm o).1 ho with rfl | ⟨h1, h2⟩
        · exact Or.inr (List.mem_append.2 (Or.inr (hall e2)))
        · rcases h.all o h1 e1 e2 with hm' | hm'
          · rcases List.mem_cons.1 hm' with rfl | hm'
            · exact absurd rfl h2
            · exact Or.inl hm'
          · exact Or.inr (List.mem_append.2 (Or.inl hm'))
      · rw [List.pairwise_append]
        refine ⟨h.distinct, hexd, ?_⟩
        intro a ha' b hb
        rw [(hex b hb).1, userId_new, hid]
        exact h.new a ha' x (by simp)
      · intro a ha' y hy
        rcases List.mem_append.1 ha' with ha' | ha'
        · exact h.new a ha' y (by simp [hy])
        · rw [(hex a ha').1, userId_new, hid]
          intro e3
          injection e3 with e3
          refine hnd.1 ?_
          have : y = x := h.wf.ordersS.inj (h.pending.2 y (by simp [hy])) hx (by
            simp only [OrderRec.key, Prod.mk.injEq]
            exact ⟨by rw [hxp, h.mine y (by simp [hy])], e3.symm⟩)
          rw [← this]; exact hy
      · intro o ho
        rw [hm, ← h.others o ho]
        constructor
        · rintro (rfl | ⟨h1, _⟩)
          · exact absurd (hpid.trans hxp) ho
          · exact h1
        · intro h1
          exact Or.inr ⟨h1, fun e2 => ho (by rw [e2]; exact hxp)⟩
      · intro o ho
        rcases (hm o).1 ho with rfl | ⟨h1, _⟩
        · exact ⟨x, h.orig x (by simp), hrel⟩
        · exact h.back o h1
    split at e
    · -- expired
      rename_i hcond
      rw [Option.map_eq_some_iff] at e
      obtain ⟨t', ef, rfl⟩ := e
      have ha := finishOrder_atom hx hd (SameOrder.refl x) hd rfl (h.wf.ordsOk x hx).1 ef
      have := general { x with status := .expired } t' ha (finishOrder_frame hd ef).1 (SameOrder.refl x) (by simp)
        (finishOrder_same hd ef) (Or.inr (Or.inr ⟨hd, hcond.1, by rw [← h.frame.time]; exact hcond.2, rfl⟩)) [] (by simp) (by simp) (fun e => by cases e)
      simpa using this
    · rename_i hne
      have e := Option.some.inj e
      by_cases hst : x.status = .notExecuted
      · rw [if_pos hst] at e
        subst e
        have ha : Atom t (t.setOrder { x with status := .notMatched }) :=
          .updOrder x _ hx hd (Or.inl rfl) (SameOrder.refl x) (h.wf.ordsOk x hx).1
        refine general { x with status := .notMatched } (t.setOrder { x with status := .notMatched }) ha rfl (SameOrder.refl x)
          (by simp) ⟨rfl, rfl, rfl, rfl, rfl, rfl, rfl, rfl, rfl, rfl⟩ (Or.inr (Or.inl ⟨hst, rfl⟩)) [newUserOrder x] ?_ (by simp) ?_
        · intro y hy
          simp only [List.mem_singleton] at hy
          refine ⟨hy.trans (newUserOrder_status x _).symm, rfl, fun _ => ⟨x, h.orig x (by simp), hst, SameOrder.refl x⟩⟩
        · intro _; exact List.mem_singleton.2 (newUserOrder_status x .notMatched)
      · rw [if_neg hst] at e
        subst e
        have hne' : x.expiredAt t.time = false := by
          by_contra hc
          exact hne ⟨hst, by simpa using hc⟩
        have ha : Atom t (t.setOrder x) := by
          refine .updOrder x x hx hd ?_ (SameOrder.refl x) (h.wf.ordsOk x hx).1
          rcases status_cases hd with e1 | e1 | e1
          · exact absurd e1 hst
          · exact Or.inl e1
          · exact Or.inr e1
        have hself : Dex.upsert OrderRec.key x t.orders = t.orders := by
          rw [upsert_existing h.wf.ordersS (h.wf.ordersS.lookup_self hx)]
          conv_rhs => rw [← List.map_id t.orders]
          apply List.map_congr_left
          intro y hy
          split
          · rename_i e2; exact (h.wf.ordersS.inj hy hx e2).symm
          · rfl
        have hts : t.setOrder x = t := by unfold State.setOrder; rw [hself]
        have := general x (t.setOrder x) ha rfl (SameOrder.refl x) hst ⟨rfl, rfl, rfl, rfl, rfl, rfl, rfl, rfl, rfl, rfl⟩
          (Or.inl rfl) [newUserOrder x] (by
            intro y hy
            simp only [List.mem_singleton] at hy
            refine ⟨hy, hd, fun hc => ?_⟩
            rw [h.frame.time] at hne'
            rw [hne'] at hc; cases hc) (by simp) (fun _ => by simp)
        rw [hts] at this
        exact this

theorem collect_all (hw : WF s) (pid : Nat) {st : State × List Order}
    (h : forEach collectOrder (s.ordersOf pid) (s, []) = some st) : Collecting pid s [] st := by
  refine forEach_inv (f := collectOrder) (fun xs t => Collecting pid s xs t) (fun x xs t t' => collect_step) _ _ _ ?_ h
  refine ⟨hw, Relation.ReflTransGen.refl, hw.pending _, ?_, ?_, by simp, ?_, by simp, by simp, SameFrame.refl s, by simp, ?_,
    fun o ho => ⟨o, ho, Or.inl rfl⟩⟩
  · intro x hx; simpa [State.ordersOf] using (List.mem_filter.1 hx).2
  · intro o ho e1 _; exact List.mem_filter.2 ⟨ho, by simpa using e1⟩
  · intro o ho e1 _; exact Or.inl (List.mem_filter.2 ⟨ho, by simpa using e1⟩)
  · intro x hx; exact (List.mem_filter.1 hx).1

/-- Invariant of the loop that collects the pools of a pair. -/
structure CollectingPools (env : Env) (pair : Pair) (s0 : State) (xs : List PoolRec) (st : State × List (Nat × Pool)) : Prop where
  wf : WF st.1
  reach : Reach s0 st.1
  nodup : xs.Nodup
  pending : ∀ x ∈ xs, x ∈ st.1.pools ∧ x.pairId = pair.id
  orders : st.1.orders = s0.orders
  pairs : st.1.pairs = s0.pairs
  bank : st.1.bank = s0.bank
  params : st.1.params = s0.params
  deposits : st.1.deposits = s0.deposits
  withdraws : st.1.withdraws = s0.withdraws
  numMM : st.1.numMM = s0.numMM
  time : st.1.time = s0.time
  height : st.1.height = s0.height
  shortfall : st.1.shortfall = s0.shortfall
  lastPairId : st.1.lastPairId = s0.lastPairId
  lastPoolId : st.1.lastPoolId = s0.lastPoolId
  src : ∀ e ∈ st.2, ∃ pool ∈ st.1.pools, pool.pairId = pair.id ∧ pool.disabled = false ∧ e.1 = pool.id ∧
    ammPool env pool (s0.bank.bal (.poolReserve pool.id) pair.quote) (s0.bank.bal (.poolReserve pool.id) pair.base)
      (s0.bank.supply (.pool pool.id)) = some e.2 ∧ e.2.isDepleted = false ∧ pool ∈ s0.pools
  orig : ∀ x ∈ xs, x ∈ s0.pools
  distinct : (st.2.map (·.1)).Nodup
  new : ∀ e ∈ st.2, ∀ x ∈ xs, e.1 ≠ x.id

theorem collectPool_step {env : Env} {pair : Pair} {s0 : State} {x : PoolRec} {xs : List PoolRec}
    {st st' : State × List (Nat × Pool)} (h : CollectingPools env pair s0 (x :: xs) st)
    (e : collectPool env pair x st = some st') : CollectingPools env pair s0 xs st' := by
  obtain ⟨t, ps⟩ := st
  have hnd := List.nodup_cons.1 h.nodup
  have hx := h.pending x (by simp)
  have hskip : CollectingPools env pair s0 xs (t, ps) :=
    { h with nodup := hnd.2, pending := fun y hy => h.pending y (by simp [hy]), new := fun a ha y hy => h.new a ha y (by simp [hy])
             orig := fun y hy => h.orig y (by simp [hy]) }
  unfold collectPool at e
  split at e
  · have e := Option.some.inj e
    subst e
    exact hskip
  · rename_i hdis
    split at e
    · cases e
    · rename_i ap hap
      split at e
      · have e := Option.some.inj e
        subst e
        have ha : Atom t (t.markDisabled x) := .disablePool x hx.1
        have hm : ∀ y, y ∈ (t.markDisabled x).pools ↔ y = { x with disabled := true } ∨ (y ∈ t.pools ∧ y ≠ x) :=
          fun y => h.wf.mem_setPool hx.1 rfl
        refine { hskip with wf := atom_wf h.wf ha, reach := h.reach.tail ha, pending := ?_, src := ?_ }
        · intro y hy
          have hy' := h.pending y (by simp [hy])
          exact ⟨(hm y).2 (Or.inr ⟨hy'.1, fun e2 => hnd.1 (e2 ▸ hy)⟩), hy'.2⟩
        · intro a ha'
          obtain ⟨p, p1, p2, p3, p4, p5⟩ := h.src a ha'
          refine ⟨p, (hm p).2 (Or.inr ⟨p1, ?_⟩), p2, p3, p4, p5⟩
          rintro rfl
          exact h.new a ha' p (by simp) p4
      · rename_i hdep
        have e := Option.some.inj e
        subst e
        refine { hskip with src := ?_, distinct := ?_, new := ?_ }
        · intro a ha'
          rcases List.mem_append.1 ha' with ha' | ha'
          · exact h.src a ha'
          · simp only [List.mem_singleton] at ha'
            subst ha'
            refine ⟨x, hx.1, hx.2, by simpa using hdis, rfl, ?_, by simpa using hdep, h.orig x (by simp)⟩
            unfold State.poolRx State.poolRy State.poolSupply at hap
            have hb : t.bank = s0.bank := h.bank
            simp only [hb] at hap
            exact hap
        · rw [List.map_append, List.nodup_append]
          refine ⟨h.distinct, by simp, ?_⟩
          intro a ha' b hb e2
          simp only [List.map_cons, List.map_nil, List.mem_singleton] at hb
          obtain ⟨c, hc, rfl⟩ := List.mem_map.1 ha'
          exact h.new c hc x (by simp) (e2.trans hb)
        · intro a ha' y hy
          rcases List.mem_append.1 ha' with ha' | ha'
          · exact h.new a ha' y (by simp [hy])
          · simp only [List.mem_singleton] at ha'
            subst ha'
            intro e2
            have : x = y := h.wf.key_pool hx.1 (h.pending y (by simp [hy])).1 e2
            exact hnd.1 (this ▸ hy)

theorem collectPool_all (hw : WF s) {env : Env} {pair : Pair} {st : State × List (Nat × Pool)}
    (h : forEach (collectPool env pair) (s.poolsOf pair.id) (s, []) = some st) : CollectingPools env pair s [] st := by
  refine forEach_inv (f := collectPool env pair) (fun xs t => CollectingPools env pair s xs t)
    (fun x xs t t' => collectPool_step) _ _ _ ?_ h
  refine ⟨hw, Relation.ReflTransGen.refl, hw.poolsS.nodup.filter _, ?_, rfl, rfl, rfl, rfl, rfl, rfl, rfl, rfl, rfl, rfl, rfl, rfl, by simp, ?_, by simp, by simp⟩
  · intro x hx
    simpa [State.poolsOf] using hx
  · intro x hx
    exact (List.mem_filter.1 hx).1

theorem singlePrice_kind {mp : Int} : ∀ {ps : List (Nat × Pool)} {pos : List Order}, singlePriceOrders mp ps = some pos →
    ∀ o ∈ pos, ∃ id, id ∈ ps.map (·.1) ∧ o.kind = .pool id := by
  intro ps
  induction ps with
  | nil => intro pos h; simp only [singlePriceOrders, Option.some.injEq] at h; subst h; simp
  | cons e ps ih =>
    intro pos h
    obtain ⟨id, p⟩ := e
    unfold singlePriceOrders at h
    split at h
    · rename_i b sl rest h1 h2 h3
      have h := Option.some.inj h
      subst h
      intro o ho
      simp only [List.mem_append] at ho
      rcases ho with (ho | ho) | ho
      · split at ho
        · simp only [List.mem_singleton] at ho; exact ⟨id, by simp, by rw [ho]; rfl⟩
        · cases ho
      · split at ho
        · simp only [List.mem_singleton] at ho; exact ⟨id, by simp, by rw [ho]; rfl⟩
        · cases ho
      · obtain ⟨id', h4, h5⟩ := ih h3 o ho
        exact ⟨id', by simp only [List.map_cons, List.mem_cons]; exact Or.inr h4, h5⟩
    · cases h

theorem poolOrders_kind {sqrt : Int → Int} {id : Nat} {p : Pool} {lo hi : Int} {prec : Nat} :
    ∀ o ∈ poolOrders sqrt id p lo hi prec, o.kind = .pool id := by
  intro o ho
  unfold poolOrders poolBuyOrders poolSellOrders at ho
  simp only [List.mem_append, List.mem_map] at ho
  rcases ho with ⟨a, _, rfl⟩ | ⟨a, _, rfl⟩ <;> rfl

/-- What comes out of a matching are orders that went in. -/
theorem keeperMatch_ids {env : Env} {pr : Params} {os : List Order} {pools : List (Nat × Pool)} {last : Option Int} {out : MatchOut}
    (h : keeperMatch env pr os pools last = some (some out)) :
    ∃ (pos : List Order) (h' : Heap), (∀ o ∈ pos, ∃ id, id ∈ pools.map (·.1) ∧ o.kind = .pool id) ∧ SameIds (heapOf (os ++ pos)) h' ∧
      out.orders = (bookOf (os ++ pos)).orders.map h' := by
  unfold keeperMatch at h
  split at h
  · split at h
    · cases h
    · split at h
      · cases h
      · split at h
        · cases h
        · rename_i pos hpos
          simp only at h
          split at h
          · cases h
          · cases h
          · rename_i st hst
            have h := Option.some.inj (Option.some.inj h)
            subst h
            exact ⟨pos, st.heap, singlePrice_kind hpos, ids_single hst, rfl⟩
  · split at h
    · cases h
    · simp only at h
      split at h
      · cases h
      · rename_i r hr
        split at h
        · have h := Option.some.inj (Option.some.inj h)
          subst h
          refine ⟨_, r.st.heap, ?_, ids_match hr, rfl⟩
          intro o ho
          obtain ⟨p, hm, hp⟩ := List.mem_flatMap.1 ho
          exact ⟨p.1, List.mem_map_of_mem hm, poolOrders_kind o hp⟩
        · cases h

theorem heapOf_left {os pos : List Order} {i : Nat} (hi : i < os.length) : heapOf (os ++ pos) i = os[i] := by
  unfold heapOf
  rw [List.getD_eq_getElem?_getD, List.getElem?_append_left hi, List.getElem?_eq_getElem hi]
  rfl

theorem heapOf_right {os pos : List Order} {i : Nat} (hi : os.length ≤ i) (hi' : i < (os ++ pos).length) :
    heapOf (os ++ pos) i ∈ pos := by
  unfold heapOf
  rw [List.length_append] at hi'
  rw [List.getD_eq_getElem?_getD, List.getElem?_append_right hi, List.getElem?_eq_getElem (by omega)]
  exact List.getElem_mem _

/-- The user orders among the results come from distinct user orders of the input. -/
theorem matched_users {os pos : List Order} {h' : Heap} (hk : ∀ o ∈ pos, ∃ id, o.kind = .pool id)
    (hd : os.Pairwise (fun a b => userId a ≠ userId b)) (hi : SameIds (heapOf (os ++ pos)) h') :
    (∀ o ∈ (bookOf (os ++ pos)).orders.map h', ∀ oid b, o.kind = .user oid b → ∃ x ∈ os, x.kind = o.kind ∧ x.dir = o.dir) ∧
    ((bookOf (os ++ pos)).orders.map h').Pairwise (fun a b => userId a ≠ none → userId a ≠ userId b) := by
  obtain ⟨b1, b2, _⟩ := book_orders_nodup (heapOf (os ++ pos)) (List.nodup_range (n := (os ++ pos).length))
  have hlt : ∀ p ∈ (bookOf (os ++ pos)).orders, p < (os ++ pos).length := fun p hp => List.mem_range.1 (b2 p hp)
  have huser : ∀ p ∈ (bookOf (os ++ pos)).orders, userId (h' p) ≠ none → p < os.length := by
    intro p hp hu
    by_contra hc
    obtain ⟨id, hid⟩ := hk _ (heapOf_right (by omega) (hlt p hp))
    apply hu
    unfold userId
    rw [(hi p).1, hid]
  refine ⟨?_, ?_⟩
  · intro o ho oid b hkind
    obtain ⟨p, hp, rfl⟩ := List.mem_map.1 ho
    have hpl := huser p hp (by unfold userId; rw [hkind]; simp)
    refine ⟨os[p], List.getElem_mem _, ?_, ?_⟩
    · rw [(hi p).1, heapOf_left hpl]
    · rw [(hi p).2.1, heapOf_left hpl]
  · rw [List.pairwise_map]
    refine (List.nodup_iff_pairwise_ne.1 b1).imp_of_mem ?_
    intro p q hp hq hne hu e
    have hpl := huser p hp hu
    have hql := huser q hq (by rw [← e]; exact hu)
    have e1 : userId os[p] = userId os[q] := by
      have h1 : userId (h' p) = userId os[p] := by unfold userId; rw [(hi p).1, heapOf_left hpl]
      have h2 : userId (h' q) = userId os[q] := by unfold userId; rw [(hi q).1, heapOf_left hql]
      rw [← h1, ← h2, e]
    rw [List.pairwise_iff_getElem] at hd
    rcases Nat.lt_or_gt_of_ne hne with h3 | h3
    · exact hd p q hpl hql h3 e1
    · exact hd q p hql hpl h3 e1.symm

end Verif.Dex

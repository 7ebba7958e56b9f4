import Verif.Proofs.DecompBatch
import Verif.Proofs.OrderFlow
import Verif.Proofs.History
import Verif.Spec.Ledger
/-! # The ledger under every change of the module -/
namespace Verif.Dex
open Verif Verif.Amm Verif.Spec

variable {s s' : State}

theorem total_old {α : Type} {key : α → Key} {l : List α} (h : Sorted key l) {v old : α} (f : α → Int) (ho : old ∈ l)
    (hk : key v = key old) : total f (upsert key v l) = total f l + f v - f old := sum_upsert_old h v old f ho hk

theorem total_new {α : Type} {key : α → Key} {l : List α} (h : Sorted key l) {v : α} (f : α → Int)
    (hn : ∀ x ∈ l, key x ≠ key v) : total f (upsert key v l) = total f l + f v := sum_upsert_new h v f hn

/-- Replacing an order record. -/
theorem ledger_order (hw : WF s) {o o' : OrderRec} (ho : o ∈ s.orders) (hs : SameOrder o o') (he : s'.orders = upsert OrderRec.key o' s.orders)
    (hd : s'.deposits = s.deposits) (hwd : s'.withdraws = s.withdraws) (a : Addr) (d : Denom) :
    ledger s' a d = ledger s a d + (s'.bank.bal a d - s.bank.bal a d) + orderPart a d o' - orderPart a d o := by
  unfold ledger
  rw [he, hd, hwd, total_old hw.ordersS _ ho hs.key]
  ring

theorem finish_part {o' : OrderRec} {st : OStatus} (hd : o'.done = false) (hst : st.shouldBeDeleted = true) (a : Addr) (d : Denom) :
    orderPart a d { o' with status := st } = orderPart a d o' -
      (if d = o'.offerDenom then (if a = .user o'.orderer then o'.remaining else 0) - (if a = .pairEscrow o'.pairId then o'.remaining else 0) else 0) := by
  have h1 : Unfinished o' := (done_iff o').1 hd
  have h2 : ¬ Unfinished { o' with status := st } := by
    intro hc
    have := (done_iff _).2 hc
    unfold OrderRec.done at this
    rw [show ({ o' with status := st } : OrderRec).status = st from rfl, hst] at this
    cases this
  unfold orderPart
  rw [if_pos h1, if_neg h2, if_pos h1, if_neg h2]
  by_cases e1 : d = o'.offerDenom <;> by_cases e2 : a = .user o'.orderer <;> by_cases e3 : a = .pairEscrow o'.pairId <;> simp [e1, e2, e3] <;> ring

theorem finish_ledger (hw : WF s) {o o' : OrderRec} (ho : o ∈ s.orders) (hs : SameOrder o o') (hd : o'.done = false)
    (hrem : 0 ≤ o'.remaining) {st : OStatus} (hst : st.shouldBeDeleted = true) (h : finishOrder o' st s = some s') (a : Addr) (d : Denom) :
    ledger s' a d = ledger s a d + orderPart a d o' - orderPart a d o := by
  have hm := finishOrder_effect hw hd hrem h
  obtain ⟨h1, _, _, _, _, _, h2, h3, _⟩ := finishOrder_frame hd h
  have hs' : SameOrder o { o' with status := st } := hs
  rw [ledger_order hw ho hs' h1 h2 h3, finish_part hd hst, hm.1 a d]
  ring

/-- Finishing a stored order leaves every ledger as it is. -/
theorem finish_ledger_same (hw : WF s) {o : OrderRec} (ho : o ∈ s.orders) (hd : o.done = false) {st : OStatus}
    (hst : st.shouldBeDeleted = true) (h : finishOrder o st s = some s') (a : Addr) (d : Denom) : ledger s' a d = ledger s a d := by
  rw [finish_ledger hw ho (SameOrder.refl o) hd (hw.ordsOk o ho).1 hst h]; ring

theorem status_part {o : OrderRec} {st : OStatus} (hd : o.done = false) (hst : st.shouldBeDeleted = false) (a : Addr) (d : Denom) :
    orderPart a d { o with status := st } = orderPart a d o := by
  have h1 : Unfinished o := (done_iff o).1 hd
  have h2 : Unfinished { o with status := st } := (done_iff _).1 hst
  unfold orderPart
  simp only [if_pos h1, if_pos h2]

/-! ## Matching -/

theorem collect_init (hw : WF s) (pid : Nat) : Collecting pid s (s.ordersOf pid) (s, []) :=
  ⟨hw, Relation.ReflTransGen.refl, hw.pending _, fun x hx => by simpa [State.ordersOf] using (List.mem_filter.1 hx).2,
    fun o ho e1 _ => List.mem_filter.2 ⟨ho, by simpa using e1⟩, by simp,
    fun o ho e1 _ => Or.inl (List.mem_filter.2 ⟨ho, by simpa using e1⟩), by simp, by simp, SameFrame.refl s, by simp,
    fun x hx => (List.mem_filter.1 hx).1, fun o ho => ⟨o, ho, Or.inl rfl⟩⟩

theorem collect_step_ledger {pid : Nat} {s0 : State} {x : OrderRec} {xs : List OrderRec} {st st' : State × List Order}
    (hC : Collecting pid s0 (x :: xs) st) (e : collectOrder x st = some st') (a : Addr) (d : Denom) :
    ledger st'.1 a d = ledger st.1 a d := by
  obtain ⟨t, os⟩ := st
  have hx : x ∈ t.orders := hC.pending.2 x (by simp)
  unfold collectOrder at e
  rw [matchable_iff] at e
  by_cases hd : x.done = true
  · unfold OrderRec.done at hd
    rw [hd] at e
    simp only [Bool.not_true, Bool.false_eq_true, if_false, Option.some.injEq] at e
    subst e; rfl
  · have hd : x.done = false := by simpa using hd
    have hd' : x.status.shouldBeDeleted = false := hd
    rw [hd'] at e
    simp only [Bool.not_false, if_true] at e
    split at e
    · rw [Option.map_eq_some_iff] at e
      obtain ⟨t', e1, rfl⟩ := e
      exact finish_ledger_same hC.wf hx hd rfl e1 a d
    · have e := Option.some.inj e
      subst e
      simp only
      split
      · rw [ledger_order (s' := t.setOrder { x with status := .notMatched }) (o := x) (o' := { x with status := .notMatched }) hC.wf hx (SameOrder.refl x) rfl rfl rfl,
          status_part hd rfl]
        simp [State.setOrder]
      · rfl

theorem collect_ledger (hw : WF s) (pid : Nat) {st : State × List Order}
    (h : forEach collectOrder (s.ordersOf pid) (s, []) = some st) (a : Addr) (d : Denom) : ledger st.1 a d = ledger s a d := by
  have := forEach_inv (f := collectOrder) (fun xs t => Collecting pid s xs t ∧ ledger t.1 a d = ledger s a d) ?_ _ _ _ ?_ h
  · exact this.2
  · rintro x xs t st' ⟨hC, hl⟩ e
    exact ⟨collect_step hC e, (collect_step_ledger hC e a d).trans hl⟩
  · exact ⟨collect_init hw pid, rfl⟩

theorem ledger_congr {t : State} (h1 : t.bank.bal = s.bank.bal) (h2 : t.orders = s.orders) (h3 : t.deposits = s.deposits)
    (h4 : t.withdraws = s.withdraws) (a : Addr) (d : Denom) : ledger t a d = ledger s a d := by
  unfold ledger; rw [h1, h2, h3, h4]

theorem ledger_bank (b : Bank) (a : Addr) (d : Denom) : ledger { s with bank := b } a d = ledger s a d + (b.bal a d - s.bank.bal a d) := by
  unfold ledger; simp only; ring

/-- What a matched order moves between the accounts of the exchange: it pays its offer coin into the pair's escrow (in the books,
for a user order) and receives the demand coin from there. -/
def flow (pair : Pair) (y : Order) (a : Addr) (d : Denom) : Int :=
  (if a = .pairEscrow pair.id then
    (if d = pair.offerDenom y.dir then y.paid else 0) - (if d = pair.demandDenom y.dir then y.received else 0) else 0)
  + (match y.kind with
    | .user _ _ => 0
    | .pool id => if a = .poolReserve id then
        (if d = pair.demandDenom y.dir then y.received else 0) - (if d = pair.offerDenom y.dir then y.paid else 0) else 0)

/-- The part of `flow` paid in advance by the pools. -/
def poolPayment (pair : Pair) (y : Order) (a : Addr) (d : Denom) : Int :=
  match y.kind with
  | .user _ _ => 0
  | .pool id => if y.isMatched then transferEffect ⟨.poolReserve id, .pairEscrow pair.id, [⟨pair.offerDenom y.dir, y.paid⟩]⟩ a d else 0

theorem queuePool_effect (pair : Pair) (a : Addr) (d : Denom) : ∀ (os : List Order) (op : BulkOp),
    totalEffect (queuePoolPayments pair os op) a d = totalEffect op a d + total (fun y => poolPayment pair y a d) os := by
  intro os
  induction os with
  | nil => intro op; simp [queuePoolPayments, total]
  | cons o os ih =>
    intro op
    unfold queuePoolPayments
    rw [ih]
    unfold total poolPayment
    simp only [List.map_cons, List.sum_cons]
    cases hk : o.kind with
    | user a b => simp
    | pool id =>
      simp only
      split
      · rw [queue_effect]; ring
      · simp

theorem fill_part {r : OrderRec} {x : Order} (hd : r.done = false) (a : Addr) (d : Denom) :
    orderPart a d (r.fill x) = orderPart a d r - (if a = .user r.orderer ∧ d = r.demandDenom then x.received else 0)
      + (if a = .pairEscrow r.pairId ∧ d = r.offerDenom then x.paid else 0) := by
  have h1 : Unfinished r := (done_iff r).1 hd
  have h2 : Unfinished (r.fill x) := (done_iff _).1 hd
  unfold orderPart
  simp only [if_pos h1, if_pos h2]
  unfold OrderRec.fill
  simp only
  split_ifs <;> omega

theorem apply_flow {pair : Pair} {s0 : State} {ys xs : List Order} {x : Order} {st st' : ApplyState}
    (h : Applying pair.id s0 ys (x :: xs) st)
    (hx : ∀ oid b, x.kind = .user oid b → ∀ r ∈ s0.orders, r.pairId = pair.id → r.id = oid →
      r.offerDenom = pair.offerDenom x.dir ∧ r.demandDenom = pair.demandDenom x.dir)
    (e : applyOrder pair x st = some st') (a : Addr) (d : Denom) :
    ledger st'.s a d + totalEffect st'.op a d + poolPayment pair x a d =
      ledger st.s a d + totalEffect st.op a d + (if x.isMatched then flow pair x a d else 0) := by
  unfold applyOrder at e
  split at e
  · rename_i hm
    have e := Option.some.inj e
    subst e
    unfold poolPayment
    rw [hm]
    cases x.kind <;> simp
  · rename_i hmatched
    have hmt : x.isMatched = true := by simpa using hmatched
    rw [if_pos hmt]
    simp only at e
    cases hk : x.kind with
    | pool id =>
      rw [hk] at e
      simp only at e
      have key : ∀ st2 : ApplyState, st2.s = st.s →
          st2.op = st.op.queue (.pairEscrow pair.id) (.poolReserve id) [⟨pair.demandDenom x.dir, x.received⟩] →
          ledger st2.s a d + totalEffect st2.op a d + poolPayment pair x a d =
            ledger st.s a d + totalEffect st.op a d + flow pair x a d := by
        intro st2 h1 h2
        rw [h1, h2, queue_effect]
        unfold poolPayment flow transferEffect
        simp only [hk, hmt, if_true, amountOf_single]
        by_cases e1 : a = .pairEscrow pair.id <;> by_cases e2 : a = .poolReserve id <;>
          by_cases e3 : pair.demandDenom x.dir = d <;> by_cases e4 : pair.offerDenom x.dir = d <;>
          simp [e1, e2, e3, e4, eq_comm (a := d)] <;> first | ring | (subst e1; simp at e2)
      split at e
      · have e := Option.some.inj e
        subst e
        exact key _ rfl rfl
      · split at e
        · cases e
        · have e := Option.some.inj e
          subst e
          exact key _ rfl rfl
    | user oid bid =>
      rw [hk] at e
      simp only at e
      split at e
      · cases e
      · rename_i rec hrec
        split at e
        · cases e
        · rename_i hge
          obtain ⟨r1, r2, r3⟩ := h.wf.getOrder_iff.1 hrec
          obtain ⟨r0, q1, q2, q3, q4⟩ := h.users x (by simp) oid bid hk
          have hmem : r0 ∈ st.s.orders := by
            refine h.keep r0 q1 (fun _ y hy e2 => ?_)
            have := (List.pairwise_append.1 h.distinct).2.2 y hy x (by simp) (by rw [e2]; simp)
            apply this
            rw [e2]
            unfold userId
            rw [hk, q3]
          have hrr : rec = r0 := h.wf.ordersS.inj r1 hmem (by simp [OrderRec.key, r2, r3, q2, q3])
          subst hrr
          obtain ⟨d1, d2⟩ := hx oid bid hk rec q1 q2 q3
          change (match (if (rec.fill x).openAmt = 0 then finishOrder (rec.fill x) .completed st.s
              else some (st.s.setOrder { rec.fill x with status := .partiallyMatched })) with
            | none => none
            | some s' => some { st with s := s', op := st.op.queue (.pairEscrow pair.id) (.user rec.orderer) [⟨rec.demandDenom, x.received⟩] }) = some st' at e
          split at e
          · cases e
          · rename_i s2 hs2
            have e := Option.some.inj e
            subst e
            have hd1 : (rec.fill x).done = false := q4
            have hl : ledger s2 a d = ledger st.s a d + orderPart a d (rec.fill x) - orderPart a d rec := by
              split at hs2
              · exact finish_ledger (o' := rec.fill x) h.wf r1 (SameOrder.refl rec) hd1 (by show 0 ≤ rec.remaining - x.paid; omega) rfl hs2 a d
              · have hs2 := Option.some.inj hs2
                subst hs2
                rw [ledger_order (s' := st.s.setOrder _) h.wf r1 (o' := { rec.fill x with status := .partiallyMatched }) (SameOrder.refl rec) rfl rfl rfl,
                  status_part hd1 rfl]
                simp [State.setOrder]
            simp only
            rw [hl, fill_part q4, queue_effect]
            unfold poolPayment flow transferEffect
            simp only [hk, amountOf_single]
            rw [d1, d2, q2]
            by_cases e1 : a = .pairEscrow pair.id <;> by_cases e2 : a = .user rec.orderer <;>
              by_cases e3 : pair.demandDenom x.dir = d <;> by_cases e4 : pair.offerDenom x.dir = d <;>
              simp [e1, e2, e3, e4, eq_comm (a := d)] <;> first | ring | (subst e1; simp at e2)

theorem apply_flow_all {pair : Pair} {s0 : State} (a : Addr) (d : Denom) : ∀ (xs ys : List Order) (st st' : ApplyState),
    Applying pair.id s0 ys xs st →
    (∀ x ∈ xs, ∀ oid b, x.kind = .user oid b → ∀ r ∈ s0.orders, r.pairId = pair.id → r.id = oid →
      r.offerDenom = pair.offerDenom x.dir ∧ r.demandDenom = pair.demandDenom x.dir) →
    forEach (applyOrder pair) xs st = some st' →
    ledger st'.s a d + totalEffect st'.op a d + total (fun y => poolPayment pair y a d) xs =
      ledger st.s a d + totalEffect st.op a d + total (fun y => if y.isMatched then flow pair y a d else 0) xs := by
  intro xs
  induction xs with
  | nil =>
    intro ys st st' h _ e
    simp only [forEach, Option.some.injEq] at e
    subst e
    simp [total]
  | cons x xs ih =>
    intro ys st st' h hx e
    simp only [forEach, Option.bind_eq_some_iff] at e
    obtain ⟨t, e1, e2⟩ := e
    have h1 := apply_flow h (hx x (by simp)) e1 a d
    have h2 := ih _ _ _ (apply_step h e1) (fun y hy => hx y (by simp [hy])) e2
    unfold total at h2 ⊢
    simp only [List.map_cons, List.sum_cons]
    linarith

theorem applyMatchResult_ledger (hw : WF s) {pair : Pair} {os : List Order} {diff : Int}
    (hu : ∀ x ∈ os, ∀ oid b, x.kind = .user oid b → ∃ r ∈ s.orders, r.pairId = pair.id ∧ r.id = oid ∧ r.done = false)
    (hx : ∀ x ∈ os, ∀ oid b, x.kind = .user oid b → ∀ r ∈ s.orders, r.pairId = pair.id → r.id = oid →
      r.offerDenom = pair.offerDenom x.dir ∧ r.demandDenom = pair.demandDenom x.dir)
    (hd : os.Pairwise (fun a b => userId a ≠ none → userId a ≠ userId b))
    (hf : ∀ o ∈ s.orders, o.pairId = pair.id → o.status ≠ .notExecuted)
    (h : applyMatchResult pair os diff s = some s') (a : Addr) (d : Denom) :
    ledger s' a d = ledger s a d + total (fun y => if y.isMatched then flow pair y a d else 0) os +
      transferEffect ⟨.pairEscrow pair.id, s.params.dustCollector, [⟨pair.quote, diff⟩]⟩ a d := by
  unfold applyMatchResult at h
  split at h
  · cases h
  · rename_i b hb
    split at h
    · cases h
    · rename_i st hst
      split at h
      · cases h
      · rename_i b2 hb2
        have h := Option.some.inj h
        subst h
        obtain ⟨ra, wa⟩ := setOrder_bank_reach hw (bankStep_run hb) (keeps_run hb (by
          intro t ht e
          obtain ⟨id, hid⟩ := queuePool_src (os := os) (op := []) (by simp) t ht
          rw [e] at hid; cases hid))
        have hl := apply_flow_all a d os [] _ st (s0 := { s with bank := b })
          ⟨wa, Relation.ReflTransGen.refl, hu, hd, hf, by simp, SameFrame.refl _, fun o ho _ => ho,
            fun o ho => ⟨o, ho, SameOrder.refl o, id, fun e => absurd rfl e, fun e1 e2 => by rw [e1] at e2; cases e2⟩,
            fun o ho => Or.inl ho⟩ hx hst
        have h1 := (run_some hb).2.1 a d
        have h2 := (run_some hb2).2.1 a d
        rw [queuePool_effect] at h1
        rw [queue_effect] at h2
        rw [ledger_bank, h2]
        simp only at hl
        rw [ledger_bank (s := s) b, h1] at hl
        have h0 : totalEffect [] a d = 0 := rfl
        rw [h0] at hl
        linarith

end Verif.Dex

import Verif.Proofs.EventsRun
import Verif.Proofs.EventsIds
import Verif.Proofs.BatchSpec
import Verif.Proofs.BatchTrace
/-! # The log is an account statement -/
namespace Verif.Dex
open Verif Verif.Amm Verif.Spec

variable {s s' : State} {log ev : List Event} {a : Addr} {d : Denom}

/-- The bank entry of account `a` is what the log says it is, starting from `c`. -/
def Tally (a : Addr) (d : Denom) (c : Int) (log : List Event) (x : Int) : Prop := x = c + total (said a d) log

theorem total_append' {α : Type} (f : α → Int) (l l' : List α) : total f (l ++ l') = total f l + total f l' := by
  unfold total; rw [List.map_append, List.sum_append]

theorem Tally.add {c x y : Int} (h : Tally a d c log x) (e : y = x + total (said a d) ev) : Tally a d c (log ++ ev) y := by
  unfold Tally at *
  rw [total_append', e, h]; ring

theorem Tally.same {c x y : Int} (h : Tally a d c log x) (e : y = x) : Tally a d c log y := e ▸ h

theorem paid_finish (hw : WF s) {o : OrderRec} (hrem : o.done = false → 0 ≤ o.remaining) {status : OStatus}
    (h : finishOrder o status s = some s') (ha : ∀ id, a ≠ .pairEscrow id) :
    s'.bank.bal a d = s.bank.bal a d + total (said a d) (finishOrderEv o status) ∧ s'.bank.supply = s.bank.supply := by
  cases hd : o.done with
  | true =>
    rw [finishOrder_done hd h, finishOrderEv_done hd]
    simp [total]
  | false =>
    have hm := finishOrder_effect hw hd (hrem hd) h
    refine ⟨?_, hm.2⟩
    rw [finishOrderEv_live hd, hm.1 a d, if_neg (ha _)]
    simp only [total, List.map_cons, List.map_nil, List.sum_cons, List.sum_nil, said, amountOf_single]
    by_cases e1 : a = .user o.orderer <;> by_cases e2 : d = o.offerDenom <;> simp [e1, e2] <;>
      (intro e3; exact absurd e3.symm (by simpa using e2))

theorem wf_finish (hw : WF s) {o : OrderRec} {status : OStatus} (ho : o ∈ s.orders)
    (hst : status.shouldBeDeleted = true) (e : finishOrder o status s = some s') : WF s' := by
  cases hd : o.done with
  | true => rw [finishOrder_done hd e]; exact hw
  | false => exact atom_wf hw (finishOrder_atom ho hd (SameOrder.refl o) hd hst (hw.ordsOk o ho).1 e)

theorem paid_cancelOrder (hw : WF s) {m : MsgCancelOrder} (e : cancelOrder m s = some s') (ha : ∀ id, a ≠ .pairEscrow id) :
    s'.bank.bal a d = s.bank.bal a d + total (said a d) (cancelOrderEv m s) ∧ s'.bank.supply = s.bank.supply := by
  unfold cancelOrder at e
  unfold cancelOrderEv
  split at e
  · cases e
  · rename_i o ho
    rw [ho]
    split at e
    · cases e
    · split at e
      · cases e
      · split at e
        · cases e
        · split at e
          · cases e
          · have h1 := paid_finish (d := d) hw (fun _ => (hw.ordsOk o (hw.getOrder_iff.1 ho).1).1) e ha
            refine ⟨?_, h1.2⟩
            rw [h1.1]
            simp only [total_append']
            simp [total, said]

theorem paid_cancelAll (hw : WF s) {m : MsgCancelAllOrders} (e : cancelAllOrders m s = some s') (ha : ∀ id, a ≠ .pairEscrow id) :
    s'.bank.bal a d = s.bank.bal a d + total (said a d) (cancelAllEv m s) ∧ s'.bank.supply = s.bank.supply := by
  unfold cancelAllOrders at e
  split at e
  · cases e
  · have := eachEv_inv (f := cancelAllStep m.pairIds) (ev := cancelAllStepEv m.pairIds)
      (fun xs t log => WF t ∧ Tally a d (s.bank.bal a d) log (t.bank.bal a d) ∧ t.bank.supply = s.bank.supply ∧ Pending xs t) (by
        rintro x xs t t' log ⟨hw, ht, hs, hp⟩ e
        unfold cancelAllStepEv
        rcases cancelAllStep_takes e with ⟨h1, h2⟩ | ⟨h1, rfl⟩
        · rw [h1, if_pos rfl]
          have hx := hp.2 x (by simp)
          have h3 := paid_finish (d := d) hw (fun _ => (hw.ordsOk x hx).1) h2 ha
          refine ⟨wf_finish hw hx rfl h2, ht.add h3.1, h3.2.trans hs, ?_⟩
          cases hd : x.done with
          | true => rw [finishOrder_done hd h2]; exact hp.tail
          | false => exact hp.upsert hw (finishOrder_frame hd h2).1 rfl
        · rw [h1, if_neg (by simp), List.append_nil]
          exact ⟨hw, ht, hs, hp.tail⟩) _ _ _ [] ⟨hw, by simp [Tally, total], rfl, hw.pending _⟩ e
    unfold cancelAllEv
    rw [List.nil_append] at this
    refine ⟨?_, this.2.2.1⟩
    rw [this.2.1]
    rw [total_append']
    simp [total, said, State.ordersBy]

/-! ## Matching -/

theorem paid_collect (hw : WF s) (pid : Nat) {st : State × List Order} (ha : ∀ id, a ≠ .pairEscrow id)
    (e : forEach collectOrder (s.ordersOf pid) (s, []) = some st) :
    st.1.bank.bal a d = s.bank.bal a d + total (said a d) (eachEv collectOrder collectOrderEv (s.ordersOf pid) (s, [])) ∧
      st.1.bank.supply = s.bank.supply := by
  have := (eachEv_inv (f := collectOrder) (ev := collectOrderEv) (fun xs t log => Collecting pid s xs t ∧
      Tally a d (s.bank.bal a d) log (t.1.bank.bal a d) ∧ t.1.bank.supply = s.bank.supply)
    (by
      rintro x xs t t' log ⟨h1, h2, h3⟩ e
      refine ⟨collect_step h1 e, ?_⟩
      have hx := h1.pending.2 x (by simp)
      unfold collectOrder at e
      unfold collectOrderEv
      split at e
      · rename_i hm
        split at e
        · rename_i hc
          rw [if_pos ⟨hm, hc⟩]
          rw [Option.map_eq_some_iff] at e
          obtain ⟨t2, e1, rfl⟩ := e
          have h4 := paid_finish (d := d) h1.wf (fun _ => (h1.wf.ordsOk x hx).1) e1 ha
          exact ⟨h2.add h4.1, h4.2.trans h3⟩
        · rename_i hc
          rw [if_neg (fun hh => hc hh.2), List.append_nil]
          have e := Option.some.inj e
          subst e
          simp only
          split
          · exact ⟨h2, h3⟩
          · exact ⟨h2, h3⟩
      · rename_i hm
        rw [if_neg (fun hh => hm hh.1), List.append_nil]
        have e := Option.some.inj e
        subst e
        exact ⟨h2, h3⟩) _ _ _ [] ⟨collect_init hw pid, by simp [Tally, total], rfl⟩ e).2
  rw [List.nil_append] at this
  exact this

theorem paid_expire_step {x : OrderRec} {xs : List OrderRec} {s0 t t' : State} (h : Expiring s0 (x :: xs) t) (ha : ∀ id, a ≠ .pairEscrow id)
    (e : expireOrder x t = some t') :
    t'.bank.bal a d = t.bank.bal a d + total (said a d) (expireOrderEv x t) ∧ t'.bank.supply = t.bank.supply := by
  have hx := h.pending.2 x (by simp)
  unfold expireOrder at e
  unfold expireOrderEv
  split at e
  · rename_i hc
    rw [if_pos hc]
    exact paid_finish h.wf (fun _ => (h.wf.ordsOk x hx).1) e ha
  · rename_i hc
    rw [if_neg hc]
    split at e
    · rename_i hc
      rw [if_pos hc]
      exact paid_finish h.wf (fun _ => (h.wf.ordsOk x hx).1) e ha
    · rename_i hc
      rw [if_neg hc]
      have e := Option.some.inj e
      subst e
      simp [total]

/-- What a matched pool order receives and pays. -/
def poolFlow (pair : Pair) (y : Order) (a : Addr) (d : Denom) : Int :=
  match y.kind with
  | .user _ _ => 0
  | .pool id => if y.isMatched then (if a = .poolReserve id then
      (if d = pair.demandDenom y.dir then y.received else 0) - (if d = pair.offerDenom y.dir then y.paid else 0) else 0) else 0

theorem paid_apply_step {pair : Pair} {s0 : State} {ys xs : List Order} {x : Order} {st st' : ApplyState}
    (h : Applying pair.id s0 ys (x :: xs) st) (ha : ∀ id, a ≠ .pairEscrow id) (e : applyOrder pair x st = some st') :
    st'.s.bank.bal a d + totalEffect st'.op a d + poolPayment pair x a d = st.s.bank.bal a d + totalEffect st.op a d +
      total (said a d) (applyOrderEv pair x st) + poolFlow pair x a d ∧ st'.s.bank.supply = st.s.bank.supply := by
  unfold applyOrder at e
  unfold applyOrderEv
  split at e
  · rename_i hm
    rw [if_pos hm]
    have e := Option.some.inj e
    subst e
    unfold poolPayment poolFlow
    rw [hm]
    cases x.kind <;> simp [total]
  · rename_i hmatched
    rw [if_neg hmatched]
    have hmt : x.isMatched = true := by simpa using hmatched
    simp only at e
    cases hk : x.kind with
    | pool id =>
      rw [hk] at e
      simp only at e ⊢
      have key : ∀ st2 : ApplyState, st2.s = st.s →
          st2.op = st.op.queue (.pairEscrow pair.id) (.poolReserve id) [⟨pair.demandDenom x.dir, x.received⟩] →
          st2.s.bank.bal a d + totalEffect st2.op a d + poolPayment pair x a d =
            st.s.bank.bal a d + totalEffect st.op a d + total (said a d) [] + poolFlow pair x a d ∧ st2.s.bank.supply = st.s.bank.supply := by
        intro st2 h1 h2
        rw [h1, h2, queue_effect]
        refine ⟨?_, rfl⟩
        unfold poolPayment poolFlow transferEffect
        have h0 := ha pair.id
        simp only [hk, hmt, if_true, amountOf_single, if_neg h0, total, List.map_nil, List.sum_nil]
        by_cases e2 : a = .poolReserve id <;>
          by_cases e3 : pair.demandDenom x.dir = d <;> by_cases e4 : pair.offerDenom x.dir = d <;>
          simp [e2, e3, e4, eq_comm (a := d)] <;> ring
      split at e
      · have e := Option.some.inj e
        subst e
        exact key _ rfl rfl
      · split at e
        · cases e
        · have e := Option.some.inj e
          subst e
          exact key _ rfl rfl
    | user oid bid =>
      rw [hk] at e
      simp only at e ⊢
      split at e
      · cases e
      · rename_i rec hrec
        rw [hrec]
        simp only
        split at e
        · cases e
        · rename_i hge
          change (match (if (rec.fill x).openAmt = 0 then finishOrder (rec.fill x) .completed st.s
              else some (st.s.setOrder { rec.fill x with status := .partiallyMatched })) with
            | none => none
            | some s' => some { st with s := s', op := st.op.queue (.pairEscrow pair.id) (.user rec.orderer) [⟨rec.demandDenom, x.received⟩] }) = some st' at e
          change _ = _ + total (said a d) ((if (rec.fill x).openAmt = 0 then finishOrderEv (rec.fill x) .completed else []) ++
            [.userMatched x.dir rec.orderer pair.id oid (x.amount - x.openAmt) ⟨rec.offerDenom, x.paid⟩ ⟨rec.demandDenom, x.received⟩]) + _ ∧ _
          have hrem : 0 ≤ (rec.fill x).remaining := by show 0 ≤ rec.remaining - x.paid; omega
          split at e
          · cases e
          · rename_i s2 hs2
            have e := Option.some.inj e
            subst e
            have hl : s2.bank.bal a d = st.s.bank.bal a d + total (said a d) (if (rec.fill x).openAmt = 0 then finishOrderEv (rec.fill x) .completed else []) ∧
                s2.bank.supply = st.s.bank.supply := by
              split at hs2
              · rename_i h0
                rw [if_pos h0]
                exact paid_finish h.wf (fun _ => hrem) hs2 ha
              · rename_i h0
                rw [if_neg h0]
                have hs2 := Option.some.inj hs2
                subst hs2
                simp [State.setOrder, total]
            simp only
            refine ⟨?_, hl.2⟩
            rw [hl.1, total_append', queue_effect]
            unfold poolPayment poolFlow transferEffect
            have h0 := ha pair.id
            simp only [hk, amountOf_single, if_neg h0, total, List.map_cons, List.map_nil, List.sum_cons, List.sum_nil, said]
            ring

theorem paid_applyAll {pair : Pair} {s0 : State} (ha : ∀ id, a ≠ .pairEscrow id) :
    ∀ (xs ys : List Order) (st st' : ApplyState), Applying pair.id s0 ys xs st → forEach (applyOrder pair) xs st = some st' →
    st'.s.bank.bal a d + totalEffect st'.op a d + total (fun y => poolPayment pair y a d) xs = st.s.bank.bal a d + totalEffect st.op a d +
      total (said a d) (eachEv (applyOrder pair) (applyOrderEv pair) xs st) + total (fun y => poolFlow pair y a d) xs ∧
      st'.s.bank.supply = st.s.bank.supply := by
  intro xs
  induction xs with
  | nil =>
    intro ys st st' _ e
    simp only [forEach, Option.some.injEq] at e
    subst e
    simp [total, eachEv]
  | cons x xs ih =>
    intro ys st st' h e
    simp only [forEach, Option.bind_eq_some_iff] at e
    obtain ⟨t, e1, e2⟩ := e
    have h1 := paid_apply_step (d := d) h ha e1
    have h2 := ih _ _ _ (apply_step h e1) e2
    refine ⟨?_, h2.2.trans h1.2⟩
    unfold eachEv
    rw [e1]
    simp only [total_append']
    have h3 := h1.1
    have h4 := h2.1
    unfold total at *
    simp only [List.map_cons, List.sum_cons]
    linarith

/-! ## The results of the pools -/

/-- What the events of a list of pool results say. -/
def resultsSay (pair : Pair) (a : Addr) (d : Denom) (rs : List PoolMatch) : Int :=
  total (fun r : PoolMatch => if a = .poolReserve r.poolId then
    (if d = pair.demandDenom r.dir then r.received else 0) - (if d = pair.offerDenom r.dir then r.paid else 0) else 0) rs

theorem addPoolMatch_new {id : Nat} {o : Order} : ∀ {rs : List PoolMatch}, (∀ r ∈ rs, r.poolId ≠ id) →
    addPoolMatch id o rs = rs ++ [⟨id, o.dir, o.paid, o.received, o.amount - o.openAmt⟩]
  | [], _ => rfl
  | r :: rs, h => by
    unfold addPoolMatch
    rw [if_neg (h r (by simp)), addPoolMatch_new (fun x hx => h x (by simp [hx]))]
    rfl

theorem addPoolMatch_old {pair : Pair} {id : Nat} {o : Order} : ∀ {rs : List PoolMatch} {r0 : PoolMatch},
    rs.find? (fun r => r.poolId == id) = some r0 → r0.dir = o.dir →
    (addPoolMatch id o rs).map (fun r => (r.poolId, r.dir)) = rs.map (fun r => (r.poolId, r.dir)) ∧
    resultsSay pair a d (addPoolMatch id o rs) = resultsSay pair a d rs + (if a = .poolReserve id then
      (if d = pair.demandDenom o.dir then o.received else 0) - (if d = pair.offerDenom o.dir then o.paid else 0) else 0)
  | [], _, h, _ => by simp at h
  | r :: rs, r0, h, hd => by
    unfold addPoolMatch
    by_cases hr : r.poolId = id
    · rw [if_pos hr]
      simp only [List.find?_cons, hr, beq_self_eq_true, Option.some.injEq] at h
      subst h
      refine ⟨rfl, ?_⟩
      unfold resultsSay total
      simp only [List.map_cons, List.sum_cons, hr, hd]
      split_ifs <;> ring
    · rw [if_neg hr]
      have hb : (r.poolId == id) = false := by simpa using hr
      simp only [List.find?_cons, hb] at h
      obtain ⟨h1, h2⟩ := addPoolMatch_old (pair := pair) h hd
      refine ⟨by rw [List.map_cons, List.map_cons, h1], ?_⟩
      unfold resultsSay total at *
      simp only [List.map_cons, List.sum_cons]
      rw [h2]; ring

theorem poolMatches_say {pair : Pair} : ∀ (os : List Order) (st st' : ApplyState) (rs : List PoolMatch),
    rs.map (fun r => (r.poolId, r.dir)) = st.dirs → forEach (applyOrder pair) os st = some st' →
    resultsSay pair a d (poolMatches os rs) = resultsSay pair a d rs + total (fun y => poolFlow pair y a d) os := by
  intro os
  induction os with
  | nil => intro st st' rs _ _; simp [poolMatches, total]
  | cons x os ih =>
    intro st st' rs hr e
    simp only [forEach, Option.bind_eq_some_iff] at e
    obtain ⟨t, e1, e2⟩ := e
    unfold poolMatches
    have htot : total (fun y => poolFlow pair y a d) (x :: os) = poolFlow pair x a d + total (fun y => poolFlow pair y a d) os := by
      unfold total; rw [List.map_cons, List.sum_cons]
    rw [htot]
    unfold applyOrder at e1
    split at e1
    · rename_i hm
      have e1 := Option.some.inj e1
      subst e1
      have h0 : poolFlow pair x a d = 0 := by
        unfold poolFlow
        rw [hm]
        cases x.kind <;> simp
      have := ih _ _ rs hr e2
      rw [h0, zero_add, ← this]
      rw [hm]
      cases x.kind <;> simp
    · rename_i hm
      have hmt : x.isMatched = true := by simpa using hm
      simp only at e1
      cases hk : x.kind with
      | user oid bid =>
        rw [hk] at e1
        simp only at e1 ⊢
        have h0 : poolFlow pair x a d = 0 := by unfold poolFlow; rw [hk]
        rw [h0, zero_add]
        have hdirs : t.dirs = st.dirs := by
          split at e1
          · cases e1
          · split at e1
            · cases e1
            · split at e1
              · cases e1
              · have e1 := Option.some.inj e1
                subst e1
                rfl
        exact ih _ _ rs (hr.trans hdirs.symm) e2
      | pool id =>
        rw [hk] at e1
        simp only at e1 ⊢
        rw [if_pos hmt]
        have hflow : poolFlow pair x a d = if a = .poolReserve id then
            (if d = pair.demandDenom x.dir then x.received else 0) - (if d = pair.offerDenom x.dir then x.paid else 0) else 0 := by
          unfold poolFlow; rw [hk]; simp [hmt]
        have hfind : st.dirs.find? (fun p => p.1 == id) = (rs.find? (fun r => r.poolId == id)).map (fun r => (r.poolId, r.dir)) := by
          rw [← hr, List.find?_map]; rfl
        rw [hfind] at e1
        cases hf : rs.find? (fun r => r.poolId == id) with
        | none =>
          rw [hf] at e1
          simp only [Option.map_none] at e1
          have e1 := Option.some.inj e1
          subst e1
          have hne : ∀ r ∈ rs, r.poolId ≠ id := by
            intro r hr
            simpa using List.find?_eq_none.1 hf r hr
          rw [addPoolMatch_new hne]
          have := ih _ _ (rs ++ [⟨id, x.dir, x.paid, x.received, x.amount - x.openAmt⟩]) (by simp [hr]) e2
          rw [this, hflow]
          unfold resultsSay total
          simp only [List.map_append, List.map_cons, List.map_nil, List.sum_append, List.sum_cons, List.sum_nil]
          ring
        | some r0 =>
          rw [hf] at e1
          simp only [Option.map_some] at e1
          split at e1
          · cases e1
          · rename_i hdir
            have hdir : r0.dir = x.dir := by simpa using hdir
            have e1 := Option.some.inj e1
            subst e1
            obtain ⟨h1, h2⟩ := addPoolMatch_old (pair := pair) (a := a) (d := d) hf hdir
            have := ih _ _ (addPoolMatch id x rs) (by rw [h1]; exact hr) e2
            rw [this, h2, hflow]; ring

theorem paid_applyMatch (hw : WF s) {pair : Pair} {os : List Order} {diff : Int}
    (hu : ∀ x ∈ os, ∀ oid b, x.kind = .user oid b → ∃ r ∈ s.orders, r.pairId = pair.id ∧ r.id = oid ∧ r.done = false)
    (hd : os.Pairwise (fun a b => userId a ≠ none → userId a ≠ userId b))
    (hf : ∀ o ∈ s.orders, o.pairId = pair.id → o.status ≠ .notExecuted)
    (ha : ∀ id, a ≠ .pairEscrow id) (hdust : a ≠ s.params.dustCollector)
    (e : applyMatchResult pair os diff s = some s') :
    s'.bank.bal a d = s.bank.bal a d + total (said a d) (applyMatchEv pair os s) ∧ s'.bank.supply = s.bank.supply := by
  unfold applyMatchResult at e
  unfold applyMatchEv
  split at e
  · cases e
  · rename_i b hb
    rw [hb]
    simp only
    split at e
    · cases e
    · rename_i st hst
      split at e
      · cases e
      · rename_i b2 hb2
        have e := Option.some.inj e
        subst e
        obtain ⟨ra, wa⟩ := setOrder_bank_reach hw (bankStep_run hb) (keeps_run hb (by
          intro t ht e
          obtain ⟨id, hid⟩ := queuePool_src (os := os) (op := []) (by simp) t ht
          rw [e] at hid; cases hid))
        have hA0 : Applying pair.id { s with bank := b } [] os ⟨{ s with bank := b }, [], []⟩ :=
          ⟨wa, Relation.ReflTransGen.refl, hu, hd, hf, by simp, SameFrame.refl _, fun o ho _ => ho,
            fun o ho => ⟨o, ho, SameOrder.refl o, id, fun e => absurd rfl e, fun e1 e2 => by rw [e1] at e2; cases e2⟩,
            fun o ho => Or.inl ho⟩
        have hl := paid_applyAll (d := d) ha os [] _ st hA0 hst
        have hp := poolMatches_say (a := a) (d := d) os _ st [] rfl hst
        have h1 := (run_some hb).2.1 a d
        have h2 := (run_some hb2).2.1 a d
        rw [queuePool_effect] at h1
        rw [queue_effect] at h2
        refine ⟨?_, (run_some hb2).1.trans (hl.2.trans (run_some hb).1)⟩
        have h3 : transferEffect ⟨.pairEscrow pair.id, s.params.dustCollector, [⟨pair.quote, diff⟩]⟩ a d = 0 := by
          unfold transferEffect
          simp [ha pair.id, hdust]
        have h4 : total (said a d) ((poolMatches os []).map (fun r => .poolMatched r.dir pair.id r.poolId
            r.matched ⟨pair.offerDenom r.dir, r.paid⟩ ⟨pair.demandDenom r.dir, r.received⟩)) = resultsSay pair a d (poolMatches os []) := by
          unfold total resultsSay total
          rw [List.map_map]
          congr 1
          refine List.map_congr_left (fun r _ => ?_)
          simp only [Function.comp, said, amountOf_single, eq_comm (a := d)]
        have h0 : totalEffect [] a d = 0 := rfl
        have h5 : resultsSay pair a d [] = 0 := rfl
        show b2.bal a d = _
        rw [total_append', h4, hp, h5, h2, h3]
        have hl := hl.1
        simp only at hl
        rw [h0] at hl h1
        linarith

end Verif.Dex

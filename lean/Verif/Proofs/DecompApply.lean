import Verif.Proofs.DecompMatch
import Verif.Proofs.Requests
/-! # `ApplyMatchResult`, requests and blocks as sequences of elementary changes -/
namespace Verif.Dex
open Verif Verif.Amm Verif.Spec

variable {s s' : State}

theorem queuePool_src {pair : Pair} : ∀ {os : List Order} {op : BulkOp}, (∀ t ∈ op, ∃ id, t.src = .poolReserve id) →
    ∀ t ∈ queuePoolPayments pair os op, ∃ id, t.src = .poolReserve id := by
  intro os
  induction os with
  | nil => intro op h; exact h
  | cons o os ih =>
    intro op h
    unfold queuePoolPayments
    apply ih
    cases hk : o.kind with
    | user a b => exact h
    | pool id =>
      simp only
      split
      · intro t ht
        rcases mem_queue ht with h1 | h1
        · exact ⟨id, h1.1⟩
        · exact h t h1
      · exact h

/-- The record of a user order after a matching. -/
def OrderRec.fill (r : OrderRec) (x : Order) : OrderRec :=
  { r with openAmt := r.openAmt - (x.amount - x.openAmt), remaining := r.remaining - x.paid, received := r.received + x.received }

/-- The record `o` is the record `o0` after the result `y` of a matching was applied to it. -/
def Filled (pid : Nat) (o0 : OrderRec) (y : Order) (o : OrderRec) : Prop :=
  o0.pairId = pid ∧ o0.done = false ∧ userId y = some o0.id ∧ y.isMatched = true ∧ y.paid ≤ o0.remaining ∧
    o = { o0.fill y with status := if (o0.fill y).openAmt = 0 then .completed else .partiallyMatched }

/-- Invariant of the loop that applies the results of a matching; `ys` are the orders already treated. -/
structure Applying (pid : Nat) (s0 : State) (ys xs : List Order) (st : ApplyState) : Prop where
  wf : WF st.s
  reach : Reach s0 st.s
  users : ∀ x ∈ xs, ∀ oid b, x.kind = .user oid b → ∃ r ∈ s0.orders, r.pairId = pid ∧ r.id = oid ∧ r.done = false
  distinct : (ys ++ xs).Pairwise (fun a b => userId a ≠ none → userId a ≠ userId b)
  fresh : ∀ o ∈ st.s.orders, o.pairId = pid → o.status ≠ .notExecuted
  src : ∀ t ∈ st.op, t.src = .pairEscrow pid
  frame : SameFrame s0 st.s
  keep : ∀ o ∈ s0.orders, (o.pairId = pid → ∀ y ∈ ys, userId y ≠ some o.id) → o ∈ st.s.orders
  back : ∀ o ∈ st.s.orders, ∃ o0 ∈ s0.orders, SameOrder o0 o ∧ (o.done = false → o0.done = false) ∧ (o ≠ o0 → o0.done = false) ∧
    (o.done = true → o0.done = false → o.openAmt = 0)
  fills : ∀ o ∈ st.s.orders, o ∈ s0.orders ∨ ∃ o0 ∈ s0.orders, ∃ y ∈ ys, Filled pid o0 y o

theorem apply_step {pair : Pair} {s0 : State} {ys xs : List Order} {x : Order} {st st' : ApplyState}
    (h : Applying pair.id s0 ys (x :: xs) st) (e : applyOrder pair x st = some st') : Applying pair.id s0 (ys ++ [x]) xs st' := by
  have hd' : ((ys ++ [x]) ++ xs).Pairwise (fun a b => userId a ≠ none → userId a ≠ userId b) := by
    have := h.distinct
    rwa [← List.append_cons] 
  have hskip : Applying pair.id s0 (ys ++ [x]) xs st :=
    { h with users := fun y hy => h.users y (by simp [hy]), distinct := hd'
             keep := fun o ho hy => h.keep o ho (fun e y hm => hy e y (by simp [hm]))
             fills := fun o ho => (h.fills o ho).imp id (fun ⟨o0, h0, y, hy, hf⟩ => ⟨o0, h0, y, by simp [hy], hf⟩) }
  unfold applyOrder at e
  split at e
  · have e := Option.some.inj e
    subst e
    exact hskip
  · rename_i hmatched
    simp only at e
    cases hk : x.kind with
    | pool id =>
      rw [hk] at e
      simp only at e
      have hsrc : ∀ t ∈ st.op.queue (.pairEscrow pair.id) (.poolReserve id) [⟨pair.demandDenom x.dir, x.received⟩],
          t.src = .pairEscrow pair.id := by
        intro t ht
        rcases mem_queue ht with h1 | h1
        · exact h1.1
        · exact h.src t h1
      split at e
      · have e := Option.some.inj e
        subst e
        exact { hskip with src := hsrc }
      · split at e
        · cases e
        · have e := Option.some.inj e
          subst e
          exact { hskip with src := hsrc }
    | user oid bid =>
      rw [hk] at e
      simp only at e
      split at e
      · cases e
      · rename_i rec hrec
        split at e
        · cases e
        · rename_i hge
          obtain ⟨r1, r2, r3⟩ := h.wf.getOrder_iff.1 hrec
          -- the record is the one of the start
          obtain ⟨r0, q1, q2, q3, q4⟩ := h.users x (by simp) oid bid hk
          have hmem : r0 ∈ st.s.orders := by
            refine h.keep r0 q1 (fun _ y hy e2 => ?_)
            have := (List.pairwise_append.1 h.distinct).2.2 y hy x (by simp) (by rw [e2]; simp)
            apply this
            rw [e2]
            unfold userId
            rw [hk, q3]
          have hrr : rec = r0 := h.wf.ordersS.inj r1 hmem (by simp [OrderRec.key, r2, r3, q2, q3])
          subst hrr
          change (match (if (rec.fill x).openAmt = 0 then finishOrder (rec.fill x) .completed st.s
              else some (st.s.setOrder { rec.fill x with status := .partiallyMatched })) with
            | none => none
            | some s' => some { st with s := s', op := st.op.queue (.pairEscrow pair.id) (.user rec.orderer) [⟨rec.demandDenom, x.received⟩] }) = some st' at e
          generalize hm' : rec.fill x = rec' at e
          have hso : SameOrder rec rec' := by subst hm'; exact SameOrder.refl rec
          have hrem : 0 ≤ rec'.remaining := by subst hm'; show 0 ≤ rec.remaining - x.paid; omega
          have hst' : rec'.status = rec.status := by subst hm'; rfl
          have hd1 : rec'.done = false := by unfold OrderRec.done; rw [hst']; exact q4
          split at e
          · cases e
          · rename_i s2 hs2
            have e := Option.some.inj e
            subst e
            have hsrc : ∀ t ∈ st.op.queue (.pairEscrow pair.id) (.user rec.orderer) [⟨rec.demandDenom, x.received⟩],
                t.src = .pairEscrow pair.id := by
              intro t ht
              rcases mem_queue ht with h1 | h1
              · exact h1.1
              · exact h.src t h1
            -- one elementary change in either case
            obtain ⟨new, ha, hos, hf, hsn, hnst, hnd, hnew⟩ : ∃ new, Atom st.s s2 ∧ s2.orders = Dex.upsert OrderRec.key new st.s.orders ∧
                SameFrame st.s s2 ∧ SameOrder rec new ∧ new.status ≠ .notExecuted ∧
                (new.done = true → new.openAmt = 0) ∧
                new = { rec.fill x with status := if (rec.fill x).openAmt = 0 then .completed else .partiallyMatched } := by
              split at hs2
              · rename_i ho0
                exact ⟨{ rec' with status := .completed }, finishOrder_atom r1 q4 hso hd1 rfl hrem hs2, (finishOrder_frame hd1 hs2).1,
                  finishOrder_same hd1 hs2, hso, by simp, fun _ => ho0, by rw [hm', if_pos ho0]⟩
              · rename_i ho0
                have hs2 := Option.some.inj hs2
                subst hs2
                refine ⟨{ rec' with status := .partiallyMatched }, .updOrder rec _ r1 q4 (Or.inr rfl) hso hrem, rfl,
                  ⟨rfl, rfl, rfl, rfl, rfl, rfl, rfl, rfl, rfl, rfl⟩, hso, by simp, ?_, by rw [hm', if_neg ho0]⟩
                intro hc; cases hc
            have hm : ∀ o, o ∈ s2.orders ↔ o = new ∨ (o ∈ st.s.orders ∧ o ≠ rec) := by
              intro o; rw [hos]; exact h.wf.mem_setOrder r1 hsn.key
            refine { hskip with wf := atom_wf h.wf ha, reach := h.reach.tail ha, src := hsrc, frame := h.frame.trans hf,
                                fresh := ?_, keep := ?_, back := ?_, fills := ?_ }
            · intro o ho e1
              rcases (hm o).1 ho with rfl | ⟨h1, _⟩
              · exact hnst
              · exact h.fresh o h1 e1
            · intro o ho hy
              refine (hm o).2 (Or.inr ⟨hskip.keep o ho hy, ?_⟩)
              rintro rfl
              refine hy r2 x (by simp) ?_
              unfold userId
              rw [hk, r3]
            · intro o ho
              rcases (hm o).1 ho with rfl | ⟨h1, _⟩
              · exact ⟨rec, q1, hsn, fun _ => q4, fun _ => q4, fun hc _ => hnd hc⟩
              · exact h.back o h1
            · intro o ho
              rcases (hm o).1 ho with rfl | ⟨h1, _⟩
              · refine Or.inr ⟨rec, q1, x, by simp, r2, q4, ?_, by simpa using hmatched, by omega, hnew⟩
                unfold userId; rw [hk, r3]
              · exact hskip.fills o h1

theorem apply_all {pair : Pair} {s0 : State} : ∀ (xs ys : List Order) (st st' : ApplyState), Applying pair.id s0 ys xs st →
    forEach (applyOrder pair) xs st = some st' → Applying pair.id s0 (ys ++ xs) [] st' := by
  intro xs
  induction xs with
  | nil =>
    intro ys st st' h e
    simp only [forEach, Option.some.injEq] at e
    subst e
    rw [List.append_nil]
    exact h
  | cons x xs ih =>
    intro ys st st' h e
    simp only [forEach, Option.bind_eq_some_iff] at e
    obtain ⟨t, e1, e2⟩ := e
    have := ih _ _ _ (apply_step h e1) e2
    rwa [← List.append_cons] at this

theorem setOrder_bank_reach (hw : WF s) {b : Bank} (hb : BankStep s.bank b) (hg : KeepsEscrow s.bank b) :
    Reach s { s with bank := b } ∧ WF { s with bank := b } :=
  ⟨Reach.single (.bank b hb hg), atom_wf hw (.bank b hb hg)⟩

/-- What applying the results of a matching does to the orders. -/
structure Applied (pid : Nat) (os : List Order) (s s' : State) : Prop where
  wf : WF s'
  reach : Reach s s'
  fresh : ∀ o ∈ s'.orders, o.pairId = pid → o.status ≠ .notExecuted
  frame : SameFrame s s'
  keep : ∀ o ∈ s.orders, (o.pairId = pid → ∀ y ∈ os, userId y ≠ some o.id) → o ∈ s'.orders
  back : ∀ o ∈ s'.orders, ∃ o0 ∈ s.orders, SameOrder o0 o ∧ (o.done = false → o0.done = false) ∧ (o ≠ o0 → o0.done = false) ∧
    (o.done = true → o0.done = false → o.openAmt = 0)
  fills : ∀ o ∈ s'.orders, o ∈ s.orders ∨ ∃ o0 ∈ s.orders, ∃ y ∈ os, Filled pid o0 y o

theorem applyMatchResult_spec (hw : WF s) {pair : Pair} {os : List Order} {diff : Int}
    (hu : ∀ x ∈ os, ∀ oid b, x.kind = .user oid b → ∃ r ∈ s.orders, r.pairId = pair.id ∧ r.id = oid ∧ r.done = false)
    (hd : os.Pairwise (fun a b => userId a ≠ none → userId a ≠ userId b))
    (hf : ∀ o ∈ s.orders, o.pairId = pair.id → o.status ≠ .notExecuted)
    (h : applyMatchResult pair os diff s = some s') : Applied pair.id os s s' := by
  unfold applyMatchResult at h
  split at h
  · cases h
  · rename_i b hb
    split at h
    · cases h
    · rename_i st hst
      split at h
      · cases h
      · rename_i b2 hb2
        have h := Option.some.inj h
        subst h
        obtain ⟨ra, wa⟩ := setOrder_bank_reach hw (bankStep_run hb) (keeps_run hb (by
          intro t ht e
          obtain ⟨id, hid⟩ := queuePool_src (os := os) (op := []) (by simp) t ht
          rw [e] at hid; cases hid))
        have hA := apply_all os [] _ st (s0 := { s with bank := b })
          ⟨wa, Relation.ReflTransGen.refl, hu, hd, hf, by simp, SameFrame.refl _, fun o ho _ => ho,
            fun o ho => ⟨o, ho, SameOrder.refl o, id, fun e => absurd rfl e, fun e1 e2 => by rw [e1] at e2; cases e2⟩,
            fun o ho => Or.inl ho⟩ hst
        obtain ⟨rb, wb⟩ := setOrder_bank_reach hA.wf (bankStep_run hb2) (keeps_run hb2 (by
          intro t ht e
          rcases mem_queue ht with h1 | h1
          · rw [h1.1] at e; cases e
          · rw [hA.src t h1] at e; cases e))
        refine ⟨wb, ra.trans (hA.reach.trans rb), hA.fresh, ?_, hA.keep, hA.back, hA.fills⟩
        have f1 : SameFrame s { s with bank := b } := ⟨rfl, rfl, rfl, rfl, rfl, rfl, rfl, rfl, rfl, rfl⟩
        have f2 : SameFrame st.s { st.s with bank := b2 } := ⟨rfl, rfl, rfl, rfl, rfl, rfl, rfl, rfl, rfl, rfl⟩
        exact f1.trans (hA.frame.trans f2)

end Verif.Dex

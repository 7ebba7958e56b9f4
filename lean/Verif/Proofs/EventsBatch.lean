import Verif.Proofs.Events
/-! # The events of messages and batches about orders -/
namespace Verif.Dex
open Verif Verif.Amm Verif.Spec

variable {s s' : State} {log ev : List Event}

theorem tells_cancelOrder (h : TellsO s log) (hw : WF s) {m : MsgCancelOrder} (e : cancelOrder m s = some s') :
    TellsO s' (log ++ cancelOrderEv m s) := by
  unfold cancelOrder at e
  unfold cancelOrderEv
  split at e
  · cases e
  · rename_i o ho
    rw [ho]
    split at e
    · cases e
    · split at e
      · cases e
      · split at e
        · cases e
        · split at e
          · cases e
          · have h1 := (tells_finish h hw (hw.getOrder_iff.1 ho).1 rfl e).1
            have := h1.neutral (Evolves.refl _) rfl (ev := [.cancelOrder m.orderer m.pairId m.orderId]) (by
              intro e he; simp only [List.mem_singleton] at he; subst he; simp [Event.topic])
            rwa [List.append_assoc] at this

theorem cancelAllStep_takes {pairIds : List Nat} {o : OrderRec} (e : cancelAllStep pairIds o s = some s') :
    (cancelAllTakes pairIds o s = true ∧ finishOrder o .canceled s = some s') ∨ (cancelAllTakes pairIds o s = false ∧ s' = s) := by
  unfold cancelAllStep at e
  unfold cancelAllTakes
  by_cases h1 : pairIds.length = 0 ∨ o.pairId ∈ pairIds
  · rw [if_pos h1] at e
    rw [decide_eq_true h1, Bool.true_and]
    split at e
    · cases e
    · rename_i pair hp
      rw [hp]
      by_cases h2 : o.status ≠ .canceled ∧ o.batchId < pair.batchId
      · rw [if_pos h2] at e
        exact Or.inl ⟨decide_eq_true h2, e⟩
      · rw [if_neg h2] at e
        exact Or.inr ⟨decide_eq_false h2, (Option.some.inj e).symm⟩
  · rw [if_neg h1] at e
    rw [decide_eq_false h1, Bool.false_and]
    exact Or.inr ⟨rfl, (Option.some.inj e).symm⟩

theorem tells_cancelAll (h : TellsO s log) (hw : WF s) {m : MsgCancelAllOrders} (e : cancelAllOrders m s = some s') :
    TellsO s' (log ++ cancelAllEv m s) := by
  unfold cancelAllOrders at e
  split at e
  · cases e
  · have := eachEv_inv (f := cancelAllStep m.pairIds) (ev := cancelAllStepEv m.pairIds)
      (fun xs t log => WF t ∧ TellsO t log ∧ Pending xs t) (by
        rintro x xs t t' log ⟨hw, ht, hp⟩ e
        unfold cancelAllStepEv
        rcases cancelAllStep_takes e with ⟨h1, h2⟩ | ⟨h1, rfl⟩
        · rw [h1, if_pos rfl]
          have hx := hp.2 x (by simp)
          obtain ⟨h3, h4⟩ := tells_finish ht hw hx rfl h2
          refine ⟨h4, h3, ?_⟩
          cases hd : x.done with
          | true => rw [finishOrder_done hd h2]; exact hp.tail
          | false => exact hp.upsert hw (finishOrder_frame hd h2).1 rfl
        · rw [h1, if_neg (by simp), List.append_nil]
          exact ⟨hw, ht, hp.tail⟩) _ _ _ _ ⟨hw, h, hw.pending _⟩ e
    unfold cancelAllEv
    have h2 := this.2.1.neutral (Evolves.refl _) rfl (ev := [.cancelAllOrders m.orderer m.pairIds
      (((s.ordersBy m.orderer).filter (fun o => cancelAllTakes m.pairIds o s)).map (·.id))]) (by
        intro e he; simp only [List.mem_singleton] at he; subst he; simp [Event.topic])
    rwa [List.append_assoc] at h2

/-! ## The collection of orders -/

theorem tells_collect_step {pid : Nat} {s0 : State} {x : OrderRec} {xs : List OrderRec} {st st' : State × List Order}
    (h : Collecting pid s0 (x :: xs) st) (ht : TellsO st.1 log) (e : collectOrder x st = some st') :
    TellsO st'.1 (log ++ collectOrderEv x st) := by
  have hx := h.pending.2 x (by simp)
  unfold collectOrder at e
  unfold collectOrderEv
  split at e
  · rename_i hm
    have hd : x.done = false := by
      rw [matchable_iff] at hm
      unfold OrderRec.done
      simpa using hm
    split at e
    · rename_i hc
      rw [if_pos ⟨hm, hc⟩]
      rw [Option.map_eq_some_iff] at e
      obtain ⟨t, e1, rfl⟩ := e
      exact (tells_finish ht h.wf hx rfl e1).1
    · rename_i hc
      rw [if_neg (fun hh => hc hh.2)]
      have e := Option.some.inj e
      subst e
      simp only
      split
      · rename_i hst
        refine ht.update h.wf (evolves_setOrder h.wf hx hd (SameOrder.refl x)) hx (o' := { x with status := .notMatched }) rfl rfl ?_
          (fun _ _ e he => by simp at he)
        simp only [List.foldl_nil]
        unfold viewOf
        rw [hst]
      · rw [List.append_nil]; exact ht
  · rename_i hm
    rw [if_neg (fun hh => hm hh.1), List.append_nil]
    have e := Option.some.inj e
    subst e
    exact ht

theorem tells_collect (h : TellsO s log) (hw : WF s) (pid : Nat) {st : State × List Order}
    (e : forEach collectOrder (s.ordersOf pid) (s, []) = some st) :
    TellsO st.1 (log ++ eachEv collectOrder collectOrderEv (s.ordersOf pid) (s, [])) := by
  refine (eachEv_inv (f := collectOrder) (ev := collectOrderEv) (fun xs t log => Collecting pid s xs t ∧ TellsO t.1 log)
    (fun x xs t t' log ⟨h1, h2⟩ e => ⟨collect_step h1 e, tells_collect_step h1 h2 e⟩) _ _ _ _ ⟨?_, h⟩ e).2
  refine ⟨hw, Relation.ReflTransGen.refl, hw.pending _, ?_, ?_, by simp, ?_, by simp, by simp, SameFrame.refl s, by simp, ?_,
    fun o ho => ⟨o, ho, Or.inl rfl⟩⟩
  · intro x hx; simpa [State.ordersOf] using (List.mem_filter.1 hx).2
  · intro o ho e1 _; exact List.mem_filter.2 ⟨ho, by simpa using e1⟩
  · intro o ho e1 _; exact Or.inl (List.mem_filter.2 ⟨ho, by simpa using e1⟩)
  · intro x hx; exact (List.mem_filter.1 hx).1

/-! ## The results of a matching -/

theorem tells_apply_step {pair : Pair} {s0 : State} {ys xs : List Order} {x : Order} {st st' : ApplyState}
    (h : Applying pair.id s0 ys (x :: xs) st)
    (hdir : ∀ oid b, x.kind = .user oid b → ∀ r ∈ s0.orders, r.pairId = pair.id → r.id = oid → x.dir = r.dir)
    (ht : TellsO st.s log) (e : applyOrder pair x st = some st') :
    TellsO st'.s (log ++ applyOrderEv pair x st) := by
  unfold applyOrder at e
  unfold applyOrderEv
  split at e
  · rename_i hm
    rw [if_pos hm, List.append_nil]
    have e := Option.some.inj e
    subst e
    exact ht
  · rename_i hm
    rw [if_neg hm]
    simp only at e
    cases hk : x.kind with
    | pool id =>
      rw [hk] at e
      simp only at e ⊢
      rw [List.append_nil]
      split at e
      · have e := Option.some.inj e
        subst e
        exact ht
      · split at e
        · cases e
        · have e := Option.some.inj e
          subst e
          exact ht
    | user oid bid =>
      rw [hk] at e
      simp only at e ⊢
      split at e
      · cases e
      · rename_i rec hrec
        rw [hrec]
        simp only
        split at e
        · cases e
        · rename_i hge
          obtain ⟨r1, r2, r3⟩ := h.wf.getOrder_iff.1 hrec
          obtain ⟨r0, q1, q2, q3, q4⟩ := h.users x (by simp) oid bid hk
          have hmem : r0 ∈ st.s.orders := by
            refine h.keep r0 q1 (fun _ y hy e2 => ?_)
            have := (List.pairwise_append.1 h.distinct).2.2 y hy x (by simp) (by rw [e2]; simp)
            apply this
            rw [e2]
            unfold userId
            rw [hk, q3]
          have hrr : rec = r0 := h.wf.ordersS.inj r1 hmem (by simp [OrderRec.key, r2, r3, q2, q3])
          subst hrr
          have hdr := hdir oid bid hk rec q1 q2 q3
          change (match (if (rec.fill x).openAmt = 0 then finishOrder (rec.fill x) .completed st.s
              else some (st.s.setOrder { rec.fill x with status := .partiallyMatched })) with
            | none => none
            | some s' => some { st with s := s', op := st.op.queue (.pairEscrow pair.id) (.user rec.orderer) [⟨rec.demandDenom, x.received⟩] }) = some st' at e
          change TellsO st'.s (log ++ ((if (rec.fill x).openAmt = 0 then finishOrderEv (rec.fill x) .completed else []) ++
            [.userMatched x.dir rec.orderer pair.id oid (x.amount - x.openAmt) ⟨rec.offerDenom, x.paid⟩ ⟨rec.demandDenom, x.received⟩]))
          have hso : SameOrder rec (rec.fill x) := SameOrder.refl rec
          have hrem : 0 ≤ (rec.fill x).remaining := by show 0 ≤ rec.remaining - x.paid; omega
          have hd1 : (rec.fill x).done = false := q4
          have hlive := viewOf_live q4
          have hoff : ∀ k : Key, k ≠ rec.key → ∀ e ∈ ((if (rec.fill x).openAmt = 0 then finishOrderEv (rec.fill x) .completed else []) ++
              [Event.userMatched x.dir rec.orderer pair.id oid (x.amount - x.openAmt) ⟨rec.offerDenom, x.paid⟩ ⟨rec.demandDenom, x.received⟩]),
              ∀ t, readOrder k.1 k.2 t e = t := by
            intro k hkey e he t
            rcases List.mem_append.1 he with he | he
            · split at he
              · exact result_off (o := rec.fill x) hkey e he t
              · simp at he
            · simp only [List.mem_singleton] at he
              subst he
              simp only [readOrder]
              rw [if_neg]
              rintro ⟨e1, e2⟩
              exact hkey (by unfold OrderRec.key; rw [r2, r3, e1, e2])
          split at e
          · cases e
          · rename_i s2 hs2
            have e := Option.some.inj e
            subst e
            simp only
            split at hs2
            · rename_i ho0
              have ha := finishOrder_atom r1 q4 hso hd1 rfl hrem hs2
              refine ht.update h.wf (evolves_atom h.wf ha) r1 (finishOrder_frame hd1 hs2).1 rfl ?_ hoff
              rw [if_pos ho0, finishOrderEv_live hd1, List.singleton_append, List.foldl_cons, List.foldl_cons, List.foldl_nil]
              simp only [readOrder]
              rw [if_pos ⟨r2.symm, r3.symm⟩, if_pos ⟨rfl, rfl⟩, if_pos ⟨hlive, rfl, rfl, rfl, rfl, rfl, rfl⟩]
              simp only
              rw [if_pos ⟨hdr, rfl, rfl, rfl⟩]
              rfl
            · rename_i ho0
              have hs2 := Option.some.inj hs2
              subst hs2
              refine ht.update h.wf (evolves_setOrder h.wf r1 q4 hso) r1 (o' := { rec.fill x with status := .partiallyMatched })
                rfl rfl ?_ hoff
              rw [if_neg ho0, List.nil_append, List.foldl_cons, List.foldl_nil]
              simp only [readOrder]
              rw [if_pos ⟨r2.symm, r3.symm⟩]
              rw [if_pos ⟨hdr, rfl, rfl, rfl⟩]
              congr 1
              unfold viewOf at hlive ⊢
              simp only [OrderRec.fill] at hlive ⊢
              rw [hlive]

end Verif.Dex

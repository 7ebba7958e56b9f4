import Verif.Proofs.EventsPaidRun
/-! # Events repeat their messages -/
namespace Verif.Dex
open Verif Verif.Amm Verif.Spec

variable {env : Env} {s s' : State}

/-- The event is one of the end of a block. -/
def _root_.Verif.Dex.Event.atEnd : Event → Prop
  | .orderResult _ _ _ _ _ _ _ _ _ status => status ≠ .canceled
  | .userMatched .. | .poolMatched .. | .depositResult .. | .withdrawResult .. => True
  | _ => False

theorem atEnd_finish {o : OrderRec} {st : OStatus} (h : st ≠ .canceled) : ∀ e ∈ finishOrderEv o st, e.atEnd := by
  intro e he
  unfold finishOrderEv at he
  split at he
  · simp at he
  · simp only [List.mem_singleton] at he; subst he; exact h

theorem atEnd_collect {x : OrderRec} {st : State × List Order} : ∀ e ∈ collectOrderEv x st, e.atEnd := by
  intro e he
  unfold collectOrderEv at he
  split at he
  · exact atEnd_finish (by simp) e he
  · simp at he

theorem atEnd_apply {pair : Pair} {x : Order} {st : ApplyState} : ∀ e ∈ applyOrderEv pair x st, e.atEnd := by
  intro e he
  unfold applyOrderEv at he
  split at he
  · simp at he
  · split at he
    · split at he
      · simp at he
      · simp only [List.mem_append, List.mem_singleton] at he
        rcases he with he | rfl
        · split at he
          · exact atEnd_finish (by simp) e he
          · simp at he
        · exact trivial
    · simp at he

theorem atEnd_matching {pair : Pair} : ∀ e ∈ executeMatchingEv env pair s, e.atEnd := by
  intro e he
  unfold executeMatchingEv at he
  rcases List.mem_append.1 he with he | he
  · exact eachEv_topic (Q := Event.atEnd) (fun x s => atEnd_collect) _ _ e he
  · split at he
    · simp at he
    · split at he
      · simp at he
      · split at he
        · unfold applyMatchEv at he
          split at he
          · simp at he
          · rcases List.mem_append.1 he with he | he
            · exact eachEv_topic (Q := Event.atEnd) (fun x s => atEnd_apply) _ _ e he
            · obtain ⟨r, _, rfl⟩ := List.mem_map.1 he
              exact trivial
        · simp at he

theorem atEnd_expire {x : OrderRec} : ∀ e ∈ expireOrderEv x s, e.atEnd := by
  intro e he
  unfold expireOrderEv at he
  split at he
  · exact atEnd_finish (by simp) e he
  · split at he
    · exact atEnd_finish (by simp) e he
    · simp at he

theorem atEnd_finishDeposit {r : DepReq} {st : ReqStatus} : ∀ e ∈ finishDepositEv r st, e.atEnd := by
  intro e he
  unfold finishDepositEv at he
  split at he
  · simp at he
  · simp only [List.mem_singleton] at he; subst he; exact trivial

theorem atEnd_finishWithdraw {r : WdReq} {st : ReqStatus} : ∀ e ∈ finishWithdrawEv r st, e.atEnd := by
  intro e he
  unfold finishWithdrawEv at he
  split at he
  · simp at he
  · simp only [List.mem_singleton] at he; subst he; exact trivial

theorem atEnd_deposit {r : DepReq} : ∀ e ∈ depositPassEv env r s, e.atEnd := by
  intro e he
  unfold depositPassEv executeDepositEv at he
  repeat' (first | split at he | (simp only at he; split at he))
  all_goals first | exact atEnd_finishDeposit e he | simp at he

theorem atEnd_withdraw {r : WdReq} : ∀ e ∈ withdrawPassEv env r s, e.atEnd := by
  intro e he
  unfold withdrawPassEv executeWithdrawEv at he
  repeat' (first | split at he | (simp only at he; split at he))
  all_goals first | exact atEnd_finishWithdraw e he | simp at he

theorem atEnd_requests : ∀ e ∈ executeRequestsEv env s, e.atEnd := by
  intro e he
  unfold executeRequestsEv at he
  split at he
  · simp at he
  · split at he
    · simp at he
    · split at he
      · simp at he
      · simp only [List.mem_append] at he
        rcases he with ((he | he) | he) | he
        · exact eachEv_topic (Q := Event.atEnd) (fun x s => atEnd_matching) _ _ e he
        · exact eachEv_topic (Q := Event.atEnd) (fun x s => atEnd_expire) _ _ e he
        · exact eachEv_topic (Q := Event.atEnd) (fun x s => atEnd_deposit) _ _ e he
        · exact eachEv_topic (Q := Event.atEnd) (fun x s => atEnd_withdraw) _ _ e he

theorem repeats_txEv {op : Op} {valid : Bool} {handler : State → Option State} {f : State → List Event}
    (h : ∀ t, handler s = some t → ∀ e ∈ f s, Repeats op s e) : ∀ e ∈ txEv valid handler f s, Repeats op s e := by
  intro e he
  rcases txEv_cases (valid := valid) (handler := handler) (f := f) (s := s) with ⟨h1, _⟩ | ⟨t, h1, _, h3⟩
  · rw [h1] at he; simp at he
  · rw [h3] at he; exact h t h1 e he

theorem repeats_place {op : Op} {typ : OType} {orderer pairId : Nat} {dir : Dir} {offer : Coin} {demand : Denom}
    {price amount lifespan : Int} (ho : orderAsked op = some (typ, orderer, pairId, dir, offer, demand, amount, lifespan))
    (e : placeOrder typ orderer pairId dir offer demand price amount lifespan s = some s') :
    ∀ e ∈ placeOrderEv typ orderer pairId dir offer demand price amount lifespan s, Repeats op s e := by
  obtain ⟨pair, rprice, b, g1, _, _, _, g5, g6, g7, g8, g9, hb, rfl⟩ := placeOrder_some e
  have hnn := (send_some hb).1 _ (List.mem_singleton_self _)
  unfold placeOrderEv
  rw [g1]
  simp only
  rw [g7]
  simp only [List.mem_singleton]
  rintro _ rfl
  exact ⟨offer, lifespan, ho, rfl, rfl, by simp only; ring, hnn, by simp only; omega, rfl⟩

theorem repeats_finish {op : Op} (h : (∃ m, op = .cancelOrder m) ∨ ∃ m, op = .cancelAllOrders m) {o : OrderRec} :
    ∀ e ∈ finishOrderEv o .canceled, Repeats op s e := by
  intro e he
  unfold finishOrderEv at he
  split at he
  · simp at he
  · simp only [List.mem_singleton] at he; subst he; exact Or.inr ⟨h, rfl⟩

theorem cancelAllTakes_iff (hw : WF s) {pairIds : List Nat} {o : OrderRec} : cancelAllTakes pairIds o s = true ↔
    (pairIds = [] ∨ o.pairId ∈ pairIds) ∧ o.status ≠ .canceled ∧ ∃ p ∈ s.pairs, p.id = o.pairId ∧ o.batchId < p.batchId := by
  unfold cancelAllTakes
  rw [Bool.and_eq_true]
  simp only [decide_eq_true_eq, List.length_eq_zero_iff]
  refine and_congr_right fun _ => ?_
  cases h : s.getPair o.pairId with
  | none =>
    simp only [Bool.false_eq_true, false_iff]
    rintro ⟨_, p, hp, hid, _⟩
    rw [hw.getPair_iff.2 ⟨hp, hid⟩] at h
    cases h
  | some q =>
    obtain ⟨hq, hid⟩ := hw.getPair_iff.1 h
    simp only [decide_eq_true_eq]
    refine and_congr_right fun _ => ⟨fun h1 => ⟨q, hq, hid, h1⟩, ?_⟩
    rintro ⟨p, hp, hid2, h1⟩
    rw [hw.getPair_iff.2 ⟨hp, hid2⟩] at h
    cases h
    exact h1

theorem step_repeats (hw : WF s) {op : Op} : ∀ e ∈ stepEv env op s, Repeats op s e := by
  cases op with
  | createPair m =>
    refine repeats_txEv (fun t _ e he => ?_)
    simp only [createPairEv, List.mem_singleton] at he
    subst he; rfl
  | createPool m =>
    refine repeats_txEv (fun t h e he => ?_)
    obtain ⟨_, _, h, _⟩ := createPool_tells hw h
    rw [h, List.mem_singleton] at he
    subst he; exact Or.inl ⟨rfl, rfl⟩
  | createRangedPool m =>
    refine repeats_txEv (fun t h e he => ?_)
    obtain ⟨_, _, h, _⟩ := createRanged_tells hw h
    rw [h, List.mem_singleton] at he
    subst he; exact Or.inr ⟨rfl, _, _, _, rfl⟩
  | deposit m =>
    refine repeats_txEv (fun t h e he => ?_)
    obtain ⟨pool, _, h, _⟩ := depositMsg_form h
    obtain ⟨_, hid⟩ := hw.getPool_iff.1 h
    simp only [depositEv, h, List.mem_singleton] at he
    subst he
    simp only [Repeats, hid]
  | withdraw m =>
    refine repeats_txEv (fun t h e he => ?_)
    obtain ⟨pool, _, h, _⟩ := withdrawMsg_form h
    obtain ⟨_, hid⟩ := hw.getPool_iff.1 h
    simp only [withdrawEv, h, List.mem_singleton] at he
    subst he
    simp only [Repeats, hid]
  | limitOrder m => exact repeats_txEv (fun t h => repeats_place rfl h)
  | marketOrder m => exact repeats_txEv (fun t h => repeats_place rfl h)
  | mmOrder m =>
    refine repeats_txEv (fun t h => ?_)
    unfold Dex.mmOrder at h
    simp only at h
    split at h
    · cases h
    · rw [Option.map_eq_some_iff] at h
      obtain ⟨t', a1, _⟩ := h
      exact repeats_place rfl a1
  | cancelOrder m =>
    refine repeats_txEv (fun t _ e he => ?_)
    unfold cancelOrderEv at he
    split at he
    · simp at he
    · rcases List.mem_append.1 he with he | he
      · exact repeats_finish (Or.inl ⟨m, rfl⟩) e he
      · simp only [List.mem_singleton] at he; subst he; rfl
  | cancelAllOrders m =>
    refine repeats_txEv (fun t _ e he => ?_)
    unfold cancelAllEv at he
    rcases List.mem_append.1 he with he | he
    · refine eachEv_topic (Q := Repeats (.cancelAllOrders m) s) (fun x t e he => ?_) _ _ e he
      unfold cancelAllStepEv at he
      split at he
      · exact repeats_finish (Or.inr ⟨m, rfl⟩) e he
      · simp at he
    · simp only [List.mem_singleton] at he
      subst he
      refine ⟨rfl, fun i => ?_⟩
      simp only [List.mem_map, List.mem_filter, cancelAllTakes_iff hw, State.ordersBy]
      constructor
      · rintro ⟨o, ⟨h1, h2⟩, rfl⟩
        simp only [decide_eq_true_eq, beq_iff_eq] at h1
        exact ⟨o, h1.1, rfl, h1.2, h2⟩
      · rintro ⟨o, h1, rfl, h2, h3⟩
        exact ⟨o, ⟨⟨h1, by simpa using h2⟩, h3⟩, rfl⟩
  | transfer a b c => simp [stepEv]
  | setParams p => simp [stepEv]
  | beginBlock a b => simp [stepEv]
  | endBlock =>
    intro e he
    simp only [stepEv, endBlockEv] at he
    split at he
    · simp at he
    · split at he
      · have := atEnd_requests e he
        cases e <;> simp only [Event.atEnd] at this <;> simp only [Repeats] <;> first | trivial | exact Or.inl ⟨trivial, this⟩
      · simp at he

end Verif.Dex

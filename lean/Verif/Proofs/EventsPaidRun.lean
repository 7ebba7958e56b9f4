import Verif.Proofs.EventsPaidBlock
import Verif.Proofs.EventsIds
/-! # The log is an account statement: steps and histories -/
namespace Verif.Dex
open Verif Verif.Amm Verif.Spec

variable {env : Env} {s s' : State} {log ev : List Event} {a : Addr} {d : Denom}

theorem total_one {α : Type} (f : α → Int) (x : α) : total f [x] = f x := by
  simp [total]

theorem paid_place (hw : WF s) {typ : OType} {orderer pairId : Nat} {dir : Dir} {offer : Coin} {demand : Denom}
    {price amount lifespan : Int} (ha : ∀ id, a ≠ .pairEscrow id)
    (e : placeOrder typ orderer pairId dir offer demand price amount lifespan s = some s') :
    s'.bank.bal a d = s.bank.bal a d + total (said a d) (placeOrderEv typ orderer pairId dir offer demand price amount lifespan s) := by
  obtain ⟨pair, rprice, b, g1, _, _, _, g5, g6, g7, _, g9, hb, rfl⟩ := placeOrder_some e
  have h4 := (send_some hb).2.2.2 a d
  unfold placeOrderEv
  rw [g1]
  simp only
  rw [g7]
  simp only [total_one, said]
  show b.bal a d = _
  rw [h4]
  unfold transferEffect
  simp only
  rw [if_neg (ha pair.id)]
  split_ifs <;> ring

theorem off_total {f : Event → Int} (h : ∀ e ∈ ev, f e = 0) : total f ev = 0 := total_zero h

theorem paid_txEv {valid : Bool} {handler : State → Option State} {f : State → List Event}
    (h : ∀ t, handler s = some t → t.bank.bal a d = s.bank.bal a d + total (said a d) (f s)) :
    (tx valid handler s).bank.bal a d = s.bank.bal a d + total (said a d) (txEv valid handler f s) := by
  rcases txEv_cases (valid := valid) (handler := handler) (f := f) (s := s) with ⟨h1, h2⟩ | ⟨t, h1, h2, h3⟩
  · rw [h1, h2]; simp [total]
  · rw [h2, h3]; exact h t h1

theorem supply_txEv {valid : Bool} {handler : State → Option State} {f : State → List Event} {id : Nat}
    (h : ∀ t, handler s = some t → t.bank.supply (.pool id) = s.bank.supply (.pool id) + total (saidSupply id) (f s)) :
    (tx valid handler s).bank.supply (.pool id) = s.bank.supply (.pool id) + total (saidSupply id) (txEv valid handler f s) := by
  rcases txEv_cases (valid := valid) (handler := handler) (f := f) (s := s) with ⟨h1, h2⟩ | ⟨t, h1, h2, h3⟩
  · rw [h1, h2]; simp [total]
  · rw [h2, h3]; exact h t h1

theorem paid_step (hw : WF s) (hc : Clean s) (ha : ∀ id, a ≠ .pairEscrow id) {op : Op} (ht : ToldOf a s op)
    (e : step env op s = some s') : s'.bank.bal a d = s.bank.bal a d + total (said a d) (stepEv env op s) := by
  cases op with
  | createPair m =>
    cases e
    refine paid_txEv (fun t e => ?_)
    have hz : total (said a d) (createPairEv m s) = 0 := by simp [createPairEv, total, said]
    rw [hz]
    unfold Dex.createPair at e
    split at e
    · cases e
    · split at e
      · cases e
      · rename_i b hb
        cases e
        show b.bal a d = _
        rw [(send_some hb).2.2.2 a d]
        unfold transferEffect
        simp only
        rw [if_neg ht.1, if_neg ht.2]
        ring
  | createPool m =>
    cases e
    refine paid_txEv (fun t e => ?_)
    obtain ⟨coins, minted, e1, e2, _⟩ := createPool_tells hw e
    rw [e1, total_one, e2.bank]
    unfold transferEffect
    simp only [said]
    rw [if_neg ht.1, if_neg ht.2.1, if_neg ht.2.2, if_neg ht.1, if_neg (fun h => ht.1 h.1)]
    ring
  | createRangedPool m =>
    cases e
    refine paid_txEv (fun t e => ?_)
    obtain ⟨coins, minted, e1, e2⟩ := createRanged_tells hw e
    rw [e1, total_one, e2.bank]
    unfold transferEffect
    simp only [said]
    rw [if_neg ht.1, if_neg ht.2.1, if_neg ht.2.2, if_neg ht.1, if_neg (fun h => ht.1 h.1)]
    ring
  | deposit m =>
    cases e
    refine paid_txEv (fun t e => ?_)
    obtain ⟨pool, b, g1, hb, rfl⟩ := depositMsg_form e
    unfold depositEv
    rw [g1]
    simp only [total_one, said]
    show b.bal a d = _
    rw [(send_some hb).2.2.2 a d]
    rfl
  | withdraw m =>
    cases e
    refine paid_txEv (fun t e => ?_)
    obtain ⟨pool, b, g1, hb, _, rfl⟩ := withdrawMsg_form e
    unfold withdrawEv
    rw [g1]
    simp only [total_one, said]
    show b.bal a d = _
    rw [(send_some hb).2.2.2 a d]
    rfl
  | limitOrder m => cases e; exact paid_txEv (fun t e => paid_place hw ha e)
  | marketOrder m => cases e; exact paid_txEv (fun t e => paid_place hw ha e)
  | mmOrder m =>
    cases e
    refine paid_txEv (fun t e => ?_)
    unfold Dex.mmOrder at e
    simp only at e
    split at e
    · cases e
    · rw [Option.map_eq_some_iff] at e
      obtain ⟨t', a1, rfl⟩ := e
      have := paid_place (a := a) (d := d) hw ha a1
      exact this
  | cancelOrder m => cases e; exact paid_txEv (fun t e => (paid_cancelOrder hw e ha).1)
  | cancelAllOrders m => cases e; exact paid_txEv (fun t e => (paid_cancelAll hw e ha).1)
  | transfer src dst cs =>
    have hx := step_effect hw (by simp) (by simp) e
    clear e
    simp only [stepEv, total, List.map_nil, List.sum_nil, add_zero]
    cases hx with
    | same _ h => rw [h]
    | order _ hop => simp at hop
    | cancel _ hop => simp at hop
    | transfer _ _ _ b hb h =>
      rw [h]
      show b.bal a d = _
      rw [(send_some hb).2.2.2 a d]
      unfold transferEffect
      simp only
      rw [if_neg ht.1, if_neg ht.2]
      ring
  | setParams p =>
    have hx := step_effect hw (by simp) (by simp) e
    clear e
    simp only [stepEv, total, List.map_nil, List.sum_nil, add_zero]
    cases hx with
    | same _ h => rw [h]
    | order _ hop => simp at hop
    | cancel _ hop => simp at hop
    | params _ _ h => rw [h]
  | beginBlock x y =>
    cases e
    simp only [stepEv, total, List.map_nil, List.sum_nil, add_zero]
    rfl
  | endBlock =>
    simp only [step, endBlock] at e
    simp only [stepEv, endBlockEv]
    split at e
    · cases e
    · rename_i c1
      rw [if_neg c1]
      split at e
      · rename_i c2
        rw [if_pos c2]
        exact paid_requests hw hc ha ht e
      · rename_i c2
        rw [if_neg c2]
        cases e
        simp [total]

theorem supply_step (hw : WF s) (hc : Clean s) {op : Op} (e : step env op s = some s') (id : Nat) :
    s'.bank.supply (.pool id) = s.bank.supply (.pool id) + total (saidSupply id) (stepEv env op s) := by
  have hplace : ∀ {typ : OType} {orderer pairId : Nat} {dir : Dir} {offer : Coin} {demand : Denom} {price amount lifespan : Int} {t : State},
      placeOrder typ orderer pairId dir offer demand price amount lifespan s = some t → t.bank.supply (.pool id) = s.bank.supply (.pool id) +
        total (saidSupply id) (placeOrderEv typ orderer pairId dir offer demand price amount lifespan s) := by
    intro typ orderer pairId dir offer demand price amount lifespan t e
    rw [saidSupply_off (fun x hx => Or.inl (topic_place x hx))]
    obtain ⟨pair, rprice, b, g1, _, _, _, g5, g6, g7, _, g9, hb, rfl⟩ := placeOrder_some e
    show b.supply _ = _
    rw [(send_some hb).2.2.1, add_zero]
  cases op with
  | createPair m =>
    cases e
    refine supply_txEv (fun t e => ?_)
    have hz : total (saidSupply id) (createPairEv m s) = 0 := by simp [createPairEv, total, saidSupply]
    rw [hz]
    unfold Dex.createPair at e
    split at e
    · cases e
    · split at e
      · cases e
      · rename_i b hb
        cases e
        show b.supply _ = _
        rw [(send_some hb).2.2.1, add_zero]
  | createPool m =>
    cases e
    refine supply_txEv (fun t e => ?_)
    obtain ⟨coins, minted, e1, e2, _⟩ := createPool_tells hw e
    rw [e1, total_one, e2.supply]
    simp only [saidSupply, Denom.pool.injEq]
    have hdd : (id = s.lastPoolId + 1) = (s.lastPoolId + 1 = id) := propext eq_comm
    simp only [hdd]
  | createRangedPool m =>
    cases e
    refine supply_txEv (fun t e => ?_)
    obtain ⟨coins, minted, e1, e2⟩ := createRanged_tells hw e
    rw [e1, total_one, e2.supply]
    simp only [saidSupply, Denom.pool.injEq]
    have hdd : (id = s.lastPoolId + 1) = (s.lastPoolId + 1 = id) := propext eq_comm
    simp only [hdd]
  | deposit m =>
    cases e
    refine supply_txEv (fun t e => ?_)
    obtain ⟨pool, b, g1, hb, rfl⟩ := depositMsg_form e
    unfold depositEv
    rw [g1]
    simp only [total_one, saidSupply]
    show b.supply _ = _
    rw [(send_some hb).2.2.1, add_zero]
  | withdraw m =>
    cases e
    refine supply_txEv (fun t e => ?_)
    obtain ⟨pool, b, g1, hb, _, rfl⟩ := withdrawMsg_form e
    unfold withdrawEv
    rw [g1]
    simp only [total_one, saidSupply]
    show b.supply _ = _
    rw [(send_some hb).2.2.1, add_zero]
  | limitOrder m => cases e; exact supply_txEv (fun t e => hplace e)
  | marketOrder m => cases e; exact supply_txEv (fun t e => hplace e)
  | mmOrder m =>
    cases e
    refine supply_txEv (fun t e => ?_)
    unfold Dex.mmOrder at e
    simp only at e
    split at e
    · cases e
    · rw [Option.map_eq_some_iff] at e
      obtain ⟨t', a1, rfl⟩ := e
      have := hplace a1
      exact this
  | cancelOrder m =>
    cases e
    refine supply_txEv (fun t e => ?_)
    rw [saidSupply_off topic_cancel, (paid_cancelOrder (a := .globalEscrow) (d := .native 0) hw e (by simp)).2, add_zero]
  | cancelAllOrders m =>
    cases e
    refine supply_txEv (fun t e => ?_)
    rw [saidSupply_off topic_cancelAll, (paid_cancelAll (a := .globalEscrow) (d := .native 0) hw e (by simp)).2, add_zero]
  | transfer src dst cs =>
    have hx := step_effect hw (by simp) (by simp) e
    clear e
    simp only [stepEv, total, List.map_nil, List.sum_nil, add_zero]
    cases hx with
    | same _ h => rw [h]
    | order _ hop => simp at hop
    | cancel _ hop => simp at hop
    | transfer _ _ _ b hb h =>
      rw [h]
      show b.supply _ = _
      rw [(send_some hb).2.2.1]
  | setParams p =>
    have hx := step_effect hw (by simp) (by simp) e
    clear e
    simp only [stepEv, total, List.map_nil, List.sum_nil, add_zero]
    cases hx with
    | same _ h => rw [h]
    | order _ hop => simp at hop
    | cancel _ hop => simp at hop
    | params _ _ h => rw [h]
  | beginBlock x y =>
    cases e
    simp only [stepEv, total, List.map_nil, List.sum_nil, add_zero]
    rfl
  | endBlock =>
    simp only [step, endBlock] at e
    simp only [stepEv, endBlockEv]
    split at e
    · cases e
    · rename_i c1
      rw [if_neg c1]
      split at e
      · rename_i c2
        rw [if_pos c2]
        exact supply_requests hw hc e id
      · rename_i c2
        rw [if_neg c2]
        cases e
        simp [total]

theorem paid_run (ha : ∀ id, a ≠ .pairEscrow id) : ∀ {ops : List Op} {s s' : State}, WF s → Clean s → run env ops s = some s' →
    ToldThrough env a ops s → s'.bank.bal a d = s.bank.bal a d + total (said a d) (runEv env ops s)
  | [], s, s', _, _, h, _ => by cases h; simp [runEv, total]
  | op :: ops, s, s', hw, hc, h, ht => by
    unfold run at h
    unfold runEv
    unfold ToldThrough at ht
    cases e : step env op s with
    | none => rw [e] at h; cases h
    | some t =>
      rw [e] at h ht
      simp only [Option.bind_some] at h
      simp only at ht ⊢
      rw [total_append', paid_run ha (step_wf hw e) (clean_step hw hc e) h ht.2, paid_step hw hc ha ht.1 e]
      ring

theorem supply_run (id : Nat) : ∀ {ops : List Op} {s s' : State}, WF s → Clean s → run env ops s = some s' →
    s'.bank.supply (.pool id) = s.bank.supply (.pool id) + total (saidSupply id) (runEv env ops s)
  | [], s, s', _, _, h => by cases h; simp [runEv, total]
  | op :: ops, s, s', hw, hc, h => by
    unfold run at h
    unfold runEv
    cases e : step env op s with
    | none => rw [e] at h; cases h
    | some t =>
      rw [e] at h
      simp only [Option.bind_some] at h
      simp only
      rw [total_append', supply_run id (step_wf hw e) (clean_step hw hc e) h, supply_step hw hc e]
      ring

end Verif.Dex

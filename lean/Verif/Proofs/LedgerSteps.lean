import Verif.Proofs.LedgerBatch
/-! # The ledger under every operation of the module -/
namespace Verif.Dex
open Verif Verif.Amm Verif.Spec

variable {s s' : State}

theorem total_insert {α : Type} (f : α → Int) {l l' : List α} {x : α} (h : l.Nodup) (h' : l'.Nodup) (hx : x ∉ l)
    (hm : ∀ y, y ∈ l' ↔ y ∈ l ∨ y = x) : total f l' = total f l + f x := by
  have hp : l'.Perm (x :: l) := by
    rw [List.perm_ext_iff_of_nodup h' (List.nodup_cons.2 ⟨hx, h⟩)]
    intro y
    rw [hm, List.mem_cons, or_comm]
  unfold total
  rw [(hp.map f).sum_eq, List.map_cons, List.sum_cons, add_comm]

theorem total_perm {α : Type} (f : α → Int) {l l' : List α} (hp : l'.Perm l) : total f l' = total f l := by
  unfold total; rw [(hp.map f).sum_eq]

/-- Placing an order: what the orderer paid is in the record. -/
theorem placed_ledger (hw : WF s) (hw' : WF s') {p : Pair} {o : OrderRec} (h : OrderPlaced p o s s') (a : Addr) (d : Denom) :
    ledger s' a d = ledger s a d := by
  have hx : o ∉ s.orders := by
    intro hc
    have := h.id.2 o hc h.pair.2
    omega
  have hu : Unfinished o := Or.inl h.fresh.1
  unfold ledger
  rw [h.rest.deposits, h.rest.withdraws, total_insert (orderPart a d) hw.ordersS.nodup hw'.ordersS.nodup hx h.orders, h.bank.1 a d]
  unfold orderPart
  rw [if_pos hu, if_pos hu, h.fresh.2.2.1, h.offer.2, h.pair.2]
  split_ifs <;> simp_all <;> omega

theorem deposit_ledger (hw : WF s) (hw' : WF s') {m : MsgDeposit} {p : PoolRec} {r : DepReq} (h : DepositAccepted m p r s s')
    (a : Addr) (d : Denom) : ledger s' a d = ledger s a d := by
  have hr := h.request
  have hx : r ∉ s.deposits := by
    intro hc
    have := h.new r hc (by rw [hr, h.pool.2.1])
    omega
  unfold ledger
  rw [h.rest.2.2.2.2.1, h.rest.2.2.2.2.2.1, total_insert (depositPart a d) hw.depsS.nodup hw'.depsS.nodup hx h.deposits, h.bank a d]
  rw [hr]
  unfold depositPart transferEffect
  simp only
  split_ifs <;> simp_all <;> omega

theorem withdraw_ledger (hw : WF s) (hw' : WF s') {m : MsgWithdraw} {p : PoolRec} {r : WdReq} (h : WithdrawAccepted m p r s s')
    (a : Addr) (d : Denom) : ledger s' a d = ledger s a d := by
  have hr := h.request
  have hx : r ∉ s.withdraws := by
    intro hc
    have := h.new r hc (by rw [hr, h.pool.2.1])
    omega
  unfold ledger
  rw [h.rest.2.2.2.2.1, h.rest.2.2.2.2.2.1, total_insert (withdrawPart a d) hw.wdsS.nodup hw'.wdsS.nodup hx h.withdraws, h.bank a d]
  rw [hr]
  unfold withdrawPart transferEffect
  simp only [amountOf, List.map_cons, List.map_nil, List.sum_cons, List.sum_nil, add_zero]
  split_ifs <;> simp_all <;> omega

theorem cancel_ledger (hw : WF s) {m : MsgCancelOrder} (h : cancelOrder m s = some s') (a : Addr) (d : Denom) :
    ledger s' a d = ledger s a d := by
  unfold cancelOrder at h
  split at h
  · cases h
  · rename_i o ho
    obtain ⟨ho, hk⟩ := hw.getOrder_iff.1 ho
    split at h
    · cases h
    · split at h
      · cases h
      · split at h
        · cases h
        · split at h
          · cases h
          · by_cases hd : o.done = true
            · rw [finishOrder_done hd h]
            · exact finish_ledger_same hw ho (by simpa using hd) rfl h a d

theorem cancelAll_ledger (hw : WF s) {m : MsgCancelAllOrders} (h : cancelAllOrders m s = some s') (a : Addr) (d : Denom) :
    ledger s' a d = ledger s a d := by
  classical
  obtain ⟨h1, h2, _, hf⟩ := cancelAll_spec hw h
  unfold ledger
  rw [h2 a d, hf.deposits, hf.withdraws, h1]
  have : total (orderPart a d) (s.orders.map (fun o => if CancelTarget m s o then { o with status := .canceled } else o)) =
      total (orderPart a d) s.orders - (s.orders.map (fun o => if CancelTarget m s o then refundEffect o a d else 0)).sum := by
    clear h1 h2
    generalize hl : s.orders = l
    clear hl
    induction l with
    | nil => simp [total]
    | cons o l ih =>
      unfold total at ih ⊢
      simp only [List.map_cons, List.sum_cons]
      rw [ih]
      by_cases hc : CancelTarget m s o
      · rw [if_pos hc, if_pos hc]
        rw [finish_part ((done_iff o).2 hc.2.1) rfl]
        unfold refundEffect
        ring
      · rw [if_neg hc, if_neg hc]; ring
  rw [this]
  ring

/-- A batch: nothing is gained or lost by an account outside the exchange. -/
theorem batch_ledger_user (hw : WF s) {env : Env} (h : executeRequests env s = some s') {a : Addr} (ha : Addr.Outside a)
    (d : Denom) (hu : s.params.dustCollector ≠ a) : ledger s' a d = ledger s a d := by
  unfold executeRequests at h
  split at h
  · cases h
  · rename_i s1 h1
    have m1 := matching_all hw h1
    split at h
    · cases h
    · rename_i s2 h2
      have m2 := expire_all m1.wf h2
      split at h
      · cases h
      · rename_i s3 h3
        have m3 := deposit_all m2.wf h3
        rw [withdraw_all_ledger m3.wf h, deposit_all_ledger m2.wf h3, expire_ledger m1.wf h2]
        exact matching_all_ledger_user hw h1 ha hu d

end Verif.Dex

import Verif.Proofs.Halt
/-! # Cancellations that do not fail (C38) -/
namespace Verif.Dex
open Verif Verif.Amm Verif.Spec

variable {s s' : State}

theorem cancelOrder_total (hw : WF s) (hc : ∀ pid d, 0 ≤ escrowSlack s pid d) {m : MsgCancelOrder} {o : OrderRec} (ho : o ∈ s.orders)
    {p : Pair} (hp : p ∈ s.pairs) (h1 : o.pairId = m.pairId) (h2 : o.id = m.orderId) (h3 : p.id = m.pairId) (h4 : o.orderer = m.orderer)
    (h5 : o.status ≠ .canceled) (h6 : o.batchId < p.batchId) : ∃ s', cancelOrder m s = some s' := by
  unfold cancelOrder
  rw [show s.getOrder m.pairId m.orderId = some o from hw.getOrder_iff.2 ⟨ho, h1, h2⟩,
    show s.getPair m.pairId = some p from hw.getPair_iff.2 ⟨hp, h3⟩]
  have h7 : o.batchId ≠ p.batchId := by omega
  simp only [h4, ne_eq, not_true_eq_false, if_false, h5, h7]
  exact finish_total hw ho (by rw [ledger_escrow]; exact hc _ _)

theorem cancelAllOrders_total (hw : WF s) (hc : ∀ pid d, 0 ≤ escrowSlack s pid d) {m : MsgCancelAllOrders}
    (hm : ∀ id ∈ m.pairIds, ∃ p ∈ s.pairs, p.id = id) : ∃ s', cancelAllOrders m s = some s' := by
  unfold cancelAllOrders
  rw [if_neg (by
    simp only [List.any_eq_true, Option.isNone_iff_eq_none, not_exists, not_and]
    intro id hid hn
    obtain ⟨p, hp, e⟩ := hm id hid
    rw [show s.getPair id = some p from hw.getPair_iff.2 ⟨hp, e⟩] at hn
    cases hn)]
  obtain ⟨st, e, _⟩ := forEach_total (f := cancelAllStep m.pairIds)
    (fun xs t => WF t ∧ Pending xs t ∧ ∀ pid d, 0 ≤ ledger t (.pairEscrow pid) d) (by
      rintro x xs t ⟨hw, hp, hl⟩
      have hx : x ∈ t.orders := hp.2 x (by simp)
      unfold cancelAllStep
      split
      · obtain ⟨_, _, q, hq, e1, _⟩ := hw.ords x hx
        rw [show t.getPair x.pairId = some q from hw.getPair_iff.2 ⟨hq, e1⟩]
        simp only
        split
        · by_cases hd : x.done = true
          · have hd' : x.status.shouldBeDeleted = true := hd
            exact ⟨t, by unfold finishOrder; rw [if_pos hd'], hw, hp.tail, hl⟩
          · have hd : x.done = false := by simpa using hd
            obtain ⟨t', e⟩ := finish_total (status := .canceled) hw hx (hl _ _)
            have ha := finishOrder_atom hx hd (SameOrder.refl x) hd rfl (hw.ordsOk x hx).1 e
            exact ⟨t', e, atom_wf hw ha, hp.upsert hw (finishOrder_frame hd e).1 rfl,
              fun pid d => by rw [finish_ledger_same hw hx hd rfl e]; exact hl pid d⟩
        · exact ⟨t, rfl, hw, hp.tail, hl⟩
      · exact ⟨t, rfl, hw, hp.tail, hl⟩) (s.ordersBy m.orderer) s
    ⟨hw, hw.pending _, fun pid d => by rw [ledger_escrow]; exact hc pid d⟩
  exact ⟨st, e⟩

end Verif.Dex

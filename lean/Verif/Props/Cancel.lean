import Verif.Proofs.CancelTotal
import Verif.Proofs.HighDemo
import Verif.Proofs.HaltBatch
import Verif.Props.Orders
import Verif.Props.Escrow
/-!
# C38: exactly when a cancellation is accepted

The escrow accounts are assumed to cover the unfinished orders (`escrowSlack` not negative, C36); `C38_uncovered_not_cancelable` shows
that without it an owner may be unable to cancel.
-/
namespace Verif.Props
open Verif Verif.Amm Verif.Dex Verif.Spec

/-- The conditions on the state for cancelling one order. -/
def CancelAcceptable (m : MsgCancelOrder) (s : State) (o : OrderRec) : Prop :=
  o ∈ s.orders ∧ o.pairId = m.pairId ∧ o.id = m.orderId ∧ o.orderer = m.orderer ∧ o.status ≠ .canceled ∧
    ∃ p ∈ s.pairs, p.id = o.pairId ∧ o.batchId < p.batchId

/-- **C38** With covered escrow accounts, `CancelOrder` is accepted exactly for the owner's order of an earlier batch that is not
canceled already. -/
theorem C38_cancel_accepted_iff {env : Env} {s : State} (hs : Reachable env s) (hc : ∀ pid d, 0 ≤ escrowSlack s pid d)
    (m : MsgCancelOrder) : (∃ s', cancelOrder m s = some s') ↔ ∃ o, CancelAcceptable m s o := by
  constructor
  · rintro ⟨s', h⟩
    obtain ⟨o, ho, p, hp, h1, h2, h3, h4, h5, h6, _⟩ := C38_cancel_order hs h
    exact ⟨o, ho, h1, h2, h4, h5, p, hp, h3.trans h1.symm, h6⟩
  · rintro ⟨o, ho, h1, h2, h4, h5, p, hp, h3, h6⟩
    exact cancelOrder_total hs.wf hc ho hp h1 h2 (h3.trans h1) h4 h5 h6

/-- **C38** With covered escrow accounts, `CancelAllOrders` is accepted exactly if every pair it names exists: no order in any state
makes the whole message fail. -/
theorem C38_cancel_all_accepted_iff {env : Env} {s : State} (hs : Reachable env s) (hc : ∀ pid d, 0 ≤ escrowSlack s pid d)
    (m : MsgCancelAllOrders) : (∃ s', cancelAllOrders m s = some s') ↔ ∀ id ∈ m.pairIds, ∃ p ∈ s.pairs, p.id = id := by
  constructor
  · rintro ⟨s', h⟩ id hid
    unfold cancelAllOrders at h
    split at h
    · cases h
    · rename_i hn
      simp only [List.any_eq_true, Option.isNone_iff_eq_none, not_exists, not_and] at hn
      obtain ⟨p, hp⟩ := Option.ne_none_iff_exists'.1 (hn id hid)
      exact ⟨p, hs.wf.getPair_iff.1 hp⟩
  · exact cancelAllOrders_total hs.wf hc

/-- **C38** As transactions: a valid cancellation changes the state exactly if there is something to cancel: for one order, the owner's
unfinished order of an earlier batch; for all, at least one such order in the pairs named, which all exist. -/
theorem C38_effect_iff {env : Env} {s : State} (hs : Reachable env s) (hc : ∀ pid d, 0 ≤ escrowSlack s pid d) :
    (∀ m, (∃ s', step env (.cancelOrder m) s = some s' ∧ s' ≠ s) ↔
      m.validateBasic = true ∧ ∃ o, CancelAcceptable m s o ∧ Unfinished o) ∧
    (∀ m, (∃ s', step env (.cancelAllOrders m) s = some s' ∧ s' ≠ s) ↔
      m.validateBasic = true ∧ (∀ id ∈ m.pairIds, ∃ p ∈ s.pairs, p.id = id) ∧ ∃ o ∈ s.orders, CancelTarget m s o) := by
  have hw := hs.wf
  have key : ∀ {v : Bool} {f : State → Option State} {P : Prop}, ((∃ s', f s = some s' ∧ s' ≠ s) ↔ P) →
      ((∃ s', some (tx v f s) = some s' ∧ s' ≠ s) ↔ v = true ∧ P) := by
    intro v f P hP
    cases v with
    | false => simp [tx]
    | true =>
      simp only [tx, if_true, Option.some.injEq, true_and]
      rw [← hP]
      constructor
      · rintro ⟨s', h1, h2⟩
        cases hf : f s with
        | none => rw [hf] at h1; exact absurd h1.symm h2
        | some t => exact ⟨t, rfl, by rw [hf] at h1; have h1 : t = s' := h1; rw [h1]; exact h2⟩
      · rintro ⟨t, ht, h2⟩
        exact ⟨t, by rw [ht]; rfl, h2⟩
  have hcan : ∀ {o : OrderRec}, Unfinished o → ({ o with status := .canceled } : OrderRec) ≠ o := by
    intro o hu e
    have e := congrArg OrderRec.status e
    have e : OStatus.canceled = o.status := e
    unfold Unfinished at hu
    rw [← e] at hu
    simp at hu
  constructor
  · intro m
    refine key ⟨?_, ?_⟩
    · rintro ⟨s', h, hne⟩
      obtain ⟨o, ho, p, hp, h1, h2, h3, h4, h5, h6, _, h8⟩ := C38_cancel_order hs h
      exact ⟨o, ⟨ho, h1, h2, h4, h5, p, hp, h3.trans h1.symm, h6⟩, by by_contra hu; exact hne (h8 hu)⟩
    · rintro ⟨o, ha, hu⟩
      obtain ⟨s', h⟩ := (C38_cancel_accepted_iff hs hc m).2 ⟨o, ha⟩
      refine ⟨s', h, ?_⟩
      rintro rfl
      obtain ⟨o', ho', p, hp, h1, h2, _, _, _, _, h7, _⟩ := C38_cancel_order hs h
      have : o' = o := hw.ordersS.inj ho' ha.1 (by unfold OrderRec.key; rw [h1, h2, ha.2.1, ha.2.2.1])
      subst this
      have := ((h7 hu).2.1 o').1 ho'
      rcases this with e | ⟨_, e⟩
      · exact hcan hu e.symm
      · exact e rfl
  · intro m
    refine key ⟨?_, ?_⟩
    · rintro ⟨s', h, hne⟩
      refine ⟨(C38_cancel_all_accepted_iff hs hc m).1 ⟨s', h⟩, ?_⟩
      by_contra hno
      apply hne
      unfold cancelAllOrders at h
      split at h
      · cases h
      · have := forEach_inv (f := cancelAllStep m.pairIds) (fun xs t => t = s ∧ ∀ x ∈ xs, x ∈ s.orders ∧ x.orderer = m.orderer) (by
          rintro x xs t t' ⟨rfl, hx⟩ e
          have hx' := hx x (by simp)
          refine ⟨?_, fun y hy => hx y (by simp [hy])⟩
          unfold cancelAllStep at e
          split at e
          · rename_i hin
            split at e
            · cases e
            · rename_i p hp
              split at e
              · rename_i hb
                refine finishOrder_done ?_ e
                by_contra hd
                apply hno
                refine ⟨x, hx'.1, hx'.2, (done_iff x).1 (by simpa using hd), ?_, p, (hw.getPair_iff.1 hp).1, (hw.getPair_iff.1 hp).2, hb.2⟩
                rcases hin with h0 | h0
                · exact .inl (List.length_eq_zero_iff.1 h0)
                · exact .inr h0
              · exact (Option.some.inj e).symm
          · exact (Option.some.inj e).symm) _ _ _ ⟨rfl, fun x hx => by
            have := List.mem_filter.1 hx
            exact ⟨this.1, by simpa using this.2⟩⟩ h
        exact this.1
    · rintro ⟨hp, o, ho, ht⟩
      obtain ⟨s', h⟩ := (C38_cancel_all_accepted_iff hs hc m).2 hp
      refine ⟨s', h, ?_⟩
      rintro rfl
      have h1 := (C38_cancel_all hs h).1
      obtain ⟨i, hi, e⟩ := List.mem_iff_getElem.1 ho
      have h2 := congrArg (fun l => l[i]?) h1
      simp only [List.getElem?_map, List.getElem?_eq_getElem hi, Option.map_some, Option.some.injEq, e, if_pos ht] at h2
      exact hcan ht.2.1 h2.symm

/-- **C38 without C36**: in a sane chain, the escrow account of a pair can be short (C36_not_covered); then the owner of an unfinished
order of an earlier batch cannot cancel it, and cannot cancel all. -/
theorem C38_uncovered_not_cancelable : ∃ s, SaneChain Demo.env s ∧ SaneState Demo.env s ∧
    ∃ o, CancelAcceptable ⟨3, 1, 3⟩ s o ∧ Unfinished o ∧ cancelOrder ⟨3, 1, 3⟩ s = none ∧ cancelAllOrders ⟨3, [1]⟩ s = none := by
  obtain ⟨s, h1, h2, h3, h4, h5⟩ := Demo.saneReach
    (dustHistory ++ [.limitOrder ⟨3, 1, .sell, ⟨.native 0, 10000⟩, .native 1, 10500000000000000, 10000, 100⟩, .endBlock])
    (fun s => (∃ o ∈ s.orders, (o.pairId = 1 ∧ o.id = 3 ∧ o.orderer = 3 ∧ o.status ≠ .canceled ∧
      ∃ p ∈ s.pairs, p.id = o.pairId ∧ o.batchId < p.batchId) ∧ Unfinished o) ∧
      cancelOrder ⟨3, 1, 3⟩ s = none ∧ cancelAllOrders ⟨3, [1]⟩ s = none) (by decide +kernel)
  obtain ⟨o, ho, h6, h7⟩ := h3
  exact ⟨s, h1, h2, o, ⟨ho, h6⟩, h7, h4, h5⟩

/-- The hypotheses are met: a chain whose escrow accounts are covered and an order that can be canceled. -/
example : ∃ s, Reachable Demo.env s ∧ (∀ pid d, 0 ≤ escrowSlack s pid d) ∧ (∃ o, CancelAcceptable ⟨3, 1, 1⟩ s o ∧ Unfinished o) ∧
    (∃ o ∈ s.orders, CancelTarget ⟨3, []⟩ s o) := by
  obtain ⟨s, h1, _, _, h3⟩ := Demo.highReach
    [.createPair ⟨1, .native 0, .native 1⟩,
     .createPool ⟨1, 1, [⟨.native 0, 2000000⟩, ⟨.native 1, 6000000⟩]⟩,
     .limitOrder ⟨3, 1, .sell, ⟨.native 0, 20000⟩, .native 1, 3100000000000000000, 20000, 100⟩,
     .limitOrder ⟨2, 1, .buy, ⟨.native 1, 35200⟩, .native 0, 3200000000000000000, 11000, 100⟩, .endBlock, .beginBlock 2 5]
    (fun s => ∃ o ∈ s.orders, ((o.pairId = 1 ∧ o.id = 1 ∧ o.orderer = 3 ∧
    o.status ≠ .canceled ∧ ∃ p ∈ s.pairs, p.id = o.pairId ∧ o.batchId < p.batchId) ∧ Unfinished o)) (by decide +kernel)
  obtain ⟨o, ho, h6, h7⟩ := h3
  exact ⟨s, (sane_of_chain h1.sane).reach, high_slack h1, ⟨o, ⟨ho, h6⟩, h7⟩, o, ho, h6.2.2.1, h7, .inl rfl, h6.2.2.2.2⟩

end Verif.Props

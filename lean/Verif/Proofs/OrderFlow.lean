import Verif.Proofs.Steps
/-! # Placing, cancelling and finishing orders -/
namespace Verif.Dex
open Verif Verif.Amm Verif.Spec

variable {s s' : State}

theorem moved_of_effect {b b' : Bank} {src dst : Addr} {denom : Denom} {amt : Int}
    (h : ∀ a d, b'.bal a d = b.bal a d + transferEffect ⟨src, dst, [⟨denom, amt⟩]⟩ a d) (hs : b'.supply = b.supply) :
    Moved b b' src dst denom amt := by
  refine ⟨?_, hs⟩
  intro a d
  rw [h a d]
  simp only [transferEffect, amountOf_cons, amountOf_nil, add_zero]
  by_cases e : d = denom
  · subst e; simp
  · rw [if_neg e, if_neg (Ne.symm e)]; simp

theorem moved_send {b b' : Bank} {src dst : Addr} {denom : Denom} {amt : Int} (h : b.send src dst [⟨denom, amt⟩] = some b') :
    Moved b b' src dst denom amt := moved_of_effect (send_some h).2.2.2 (send_some h).2.2.1

theorem placeOrder_spec (hw : WF s) {typ : OType} {orderer pairId : Nat} {dir : Dir} {offer : Coin} {demand : Denom}
    {price amount lifespan : Int} (h : placeOrder typ orderer pairId dir offer demand price amount lifespan s = some s') :
    ∃ p o, OrderPlaced p o s s' ∧ p.id = pairId ∧ o.typ = typ ∧ o.orderer = orderer ∧ o.dir = dir ∧ o.amount = amount ∧
      o.offer ≤ offer.amt ∧ o.offerDenom = offer.denom ∧ o.demandDenom = demand ∧ o.expireAt = s.time + lifespan ∧
      s'.numMM = s.numMM ∧ orderPrice s.params p typ dir price = some o.price ∧ priceAllowed s.params p typ price = true ∧
      isTooSmallOrderAmount o.amount o.price = false := by
  obtain ⟨pair, rprice, b, g3, g1, g2, g4, g5, g5', g6, g7, g8, g9, rfl⟩ := placeOrder_some h
  obtain ⟨hp, hid⟩ := hw.getPair_iff.1 g3
  obtain ⟨f1, f2, f3, f4, f5⟩ := placed_facts (hw.pairNe pair hp).1 g5 g8
  simp only [f1, f2]
  generalize ho : ({ typ, id := pair.lastOrderId + 1, pairId := pair.id, msgHeight := s.height, orderer, dir, offerDenom := offer.denom, demandDenom := pair.demandDenom dir, offer := offerCoinAmount dir rprice amount, remaining := offerCoinAmount dir rprice amount, received := 0, price := rprice, amount, openAmt := amount, batchId := pair.batchId, expireAt := s.time + lifespan, status := .notExecuted } : OrderRec) = o
  have hlt : ∀ x ∈ s.orders, x.pairId = pair.id → x.id < o.id := by
    intro x hx e
    obtain ⟨_, _, q, hq, e1, e2, _⟩ := hw.ords x hx
    have : q = pair := hw.key_pair hq hp (by rw [e1, e])
    subst this; subst ho
    show x.id < q.lastOrderId + 1
    omega
  have hfresh : ∀ x ∈ s.orders, x.key ≠ o.key := by
    intro x hx e
    have e1 : x.pairId = o.pairId ∧ x.id = o.id := by simpa [OrderRec.key] using e
    have := hlt x hx (by rw [e1.1, ← ho])
    omega
  refine ⟨pair, o, ⟨⟨hp, by rw [← ho]⟩, ⟨by rw [← ho], hlt⟩, ?_, ?_, ?_, ?_, ?_, ?_, ?_⟩, hid, by rw [← ho], by rw [← ho], by rw [← ho],
    by rw [← ho], by rw [← ho]; exact g7, by rw [← ho], by rw [← ho]; exact g5'.symm, by rw [← ho], rfl, by rw [← ho]; exact g6, g4, by rw [← ho]; exact g8⟩
  · rw [← ho]; exact ⟨rfl, rfl, rfl, rfl, rfl⟩
  · rw [← ho]
    simp only [g5]
    cases dir <;> simp [Pair.offerDenom, Pair.demandDenom]
  · rw [← ho]
    refine ⟨?_, rfl⟩
    cases dir
    · have := quoteCeil_spec (p := rprice) (a := amount) (by positivity)
      have h1 : Dec.one = 1000000000000000000 := rfl
      rw [h1] at this
      show rprice * amount ≤ quoteCeil rprice amount * _ ∧ _
      refine ⟨this.2.1, ?_⟩
      show (quoteCeil rprice amount - 1) * 1000000000000000000 < rprice * amount
      omega
    · show amount = amount
      rfl
  · have := moved_send g9
    rw [← ho]; exact this
  · intro x
    show x ∈ upsert OrderRec.key o s.orders ↔ _
    rw [hw.ordersS.mem_upsert]
    constructor
    · rintro (e | ⟨e, _⟩)
      · exact Or.inr e
      · exact Or.inl e
    · rintro (e | e)
      · exact Or.inr ⟨e, hfresh x e⟩
      · exact Or.inl e
  · exact (hw.mem_setPair (p' := { pair with lastOrderId := pair.lastOrderId + 1 }) hp rfl).2 (Or.inl rfl)
  · refine ⟨rfl, rfl, rfl, rfl, rfl, rfl, rfl, rfl, ?_⟩
    intro q hq
    show q ∈ (s.setPair { pair with lastOrderId := pair.lastOrderId + 1 }).pairs ↔ _
    rw [hw.mem_setPair (p' := { pair with lastOrderId := pair.lastOrderId + 1 }) hp rfl]
    constructor
    · rintro (rfl | ⟨e, _⟩)
      · exact absurd rfl hq
      · exact e
    · intro e
      exact Or.inr ⟨e, fun e2 => hq (by rw [e2])⟩

theorem done_iff (o : OrderRec) : o.done = false ↔ Unfinished o := by
  unfold Unfinished OrderRec.done
  cases o.status <;> simp [OStatus.shouldBeDeleted, OStatus.isCanceledOrExpired]

/-- Exact effect of finishing a live order. -/
theorem finishOrder_effect (hw : WF s) {o : OrderRec} {status : OStatus} (hd : o.done = false) (hrem : 0 ≤ o.remaining)
    (h : finishOrder o status s = some s') : Moved s.bank s'.bank (.pairEscrow o.pairId) (.user o.orderer) o.offerDenom o.remaining := by
  unfold finishOrder at h
  unfold OrderRec.done at hd
  rw [hd] at h
  simp only [Bool.false_eq_true, if_false] at h
  split at h
  · cases h
  · rename_i b hb
    have hb' : s'.bank = b := by
      split at h <;> (have h := Option.some.inj h; subst h; rfl)
    rw [hb']
    split at hb
    · rw [Option.bind_eq_some_iff] at hb
      obtain ⟨pair, hp, hb⟩ := hb
      have := moved_send hb
      rwa [(hw.getPair_iff.1 hp).2] at this
    · have hb := Option.some.inj hb
      subst hb
      have : o.remaining = 0 := by omega
      refine ⟨?_, rfl⟩
      intro a d
      rw [this]; simp

/-- The counter after finishing a live order. -/
theorem finishOrder_mm {o : OrderRec} {status : OStatus} (hd : o.done = false)
    (h : finishOrder o status s = some s') (a q : Nat) :
    s'.getNumMM a q = s.getNumMM a q - (if o.typ = .mm ∧ a = o.orderer ∧ q = o.pairId then 1 else 0) := by
  unfold finishOrder at h
  unfold OrderRec.done at hd
  rw [hd] at h
  simp only [Bool.false_eq_true, if_false] at h
  split at h
  · cases h
  · rename_i b hb
    by_cases ht : o.typ = .mm
    · rw [if_pos ht] at h
      have h := Option.some.inj h
      rw [← h]
      have : ∀ (u : State) (n : Option Nat), (u.setNumMM o.orderer o.pairId n).getNumMM a q =
          if a = o.orderer ∧ q = o.pairId then n.getD 0 else u.getNumMM a q := by
        intro u n; unfold State.setNumMM State.getNumMM; simp only; split <;> rfl
      rw [this]
      by_cases e : a = o.orderer ∧ q = o.pairId
      · obtain ⟨rfl, rfl⟩ := e
        rw [if_pos (show o.orderer = o.orderer ∧ o.pairId = o.pairId from ⟨rfl, rfl⟩),
          if_pos (show o.typ = .mm ∧ o.orderer = o.orderer ∧ o.pairId = o.pairId from ⟨ht, rfl, rfl⟩)]
        show (if s.getNumMM o.orderer o.pairId ≤ 1 then none else some (s.getNumMM o.orderer o.pairId - 1) : Option Nat).getD 0 = _
        split
        · show 0 = _; omega
        · rfl
      · rw [if_neg e, if_neg (show ¬ (o.typ = .mm ∧ a = o.orderer ∧ q = o.pairId) from fun c => e c.2)]
        rfl
    · rw [if_neg ht] at h
      have h := Option.some.inj h
      rw [← h, if_neg (show ¬ (o.typ = .mm ∧ a = o.orderer ∧ q = o.pairId) from fun c => ht c.1)]
      rfl

theorem finishOrder_isSome (hw : WF s) {o : OrderRec} {status : OStatus} (ho : o ∈ s.orders)
    (hb : o.remaining ≤ s.bank.bal (.pairEscrow o.pairId) o.offerDenom) : ∃ s', finishOrder o status s = some s' := by
  obtain ⟨_, _, p, hp, e1, _⟩ := hw.ords o ho
  have hpair : s.getPair o.pairId = some p := hw.getPair_iff.2 ⟨hp, e1⟩
  obtain ⟨b, hsend⟩ := send_isSome (b := s.bank) (src := .pairEscrow p.id) (dst := .user o.orderer) (cs := [⟨o.offerDenom, o.remaining⟩])
    (by intro c hc; rw [List.mem_singleton.1 hc]; exact (hw.ordsOk o ho).1)
    (by intro c hc; rw [List.mem_singleton.1 hc, e1]; simpa [amountOf] using hb)
  unfold finishOrder
  rw [hpair, Option.bind_some, hsend]
  split
  · exact ⟨_, rfl⟩
  · split
    · rename_i h; split at h <;> cases h
    · simp only; split <;> exact ⟨_, rfl⟩

theorem sum_change {α : Type} {g g' : α → Int} {x : α} : ∀ {l : List α}, l.Nodup → x ∈ l → (∀ y ∈ l, y ≠ x → g' y = g y) →
    (l.map g').sum = (l.map g).sum + (g' x - g x) := by
  intro l
  induction l with
  | nil => intro _ h; cases h
  | cons a l ih =>
    intro hnd hx hg
    rw [List.nodup_cons] at hnd
    rw [List.map_cons, List.map_cons, List.sum_cons, List.sum_cons]
    by_cases e : a = x
    · subst e
      have : l.map g' = l.map g := List.map_congr_left (fun y hy => hg y (by simp [hy]) (fun e => hnd.1 (e ▸ hy)))
      rw [this]; ring
    · rcases List.mem_cons.1 hx with h | h
      · exact absurd h.symm e
      · rw [ih hnd.2 h (fun y hy => hg y (by simp [hy])), hg a (by simp) e]; ring

open Classical in
structure Cancelling (m : MsgCancelAllOrders) (s0 : State) (xs : List OrderRec) (t : State) : Prop where
  wf : WF t
  pending : Pending xs t
  mine : ∀ x ∈ xs, x ∈ s0.orders ∧ x.orderer = m.orderer
  frame : SameFrame s0 t
  orders : t.orders = s0.orders.map (fun o => if o ∉ xs ∧ CancelTarget m s0 o then { o with status := .canceled } else o)
  bal : ∀ a d, t.bank.bal a d = s0.bank.bal a d +
    (s0.orders.map (fun o => if o ∉ xs ∧ CancelTarget m s0 o then refundEffect o a d else 0)).sum
  supply : t.bank.supply = s0.bank.supply

open Classical in
theorem cancelling_step {m : MsgCancelAllOrders} {s0 : State} (hw0 : WF s0) {x : OrderRec} {xs : List OrderRec} {t t' : State}
    (h : Cancelling m s0 (x :: xs) t) (e : cancelAllStep m.pairIds x t = some t') : Cancelling m s0 xs t' := by
  have hx := h.mine x (by simp)
  have hxt : x ∈ t.orders := h.pending.2 x (by simp)
  have hnd := List.nodup_cons.1 h.pending.1
  have hord0 := hw0.ordersS.nodup
  -- the order is not a target: nothing changes
  have skip : ¬ CancelTarget m s0 x → Cancelling m s0 xs t := by
    intro hn
    have hiff : ∀ o, (o ∉ (x :: xs) ∧ CancelTarget m s0 o) ↔ (o ∉ xs ∧ CancelTarget m s0 o) := by
      intro o
      constructor
      · rintro ⟨h1, h2⟩; exact ⟨fun hc => h1 (by simp [hc]), h2⟩
      · rintro ⟨h1, h2⟩
        refine ⟨?_, h2⟩
        rw [List.mem_cons, not_or]
        exact ⟨fun e2 => hn (e2 ▸ h2), h1⟩
    refine { h with pending := h.pending.tail, mine := fun y hy => h.mine y (by simp [hy]), orders := ?_, bal := ?_ }
    · rw [h.orders]; simp only [hiff]
    · intro a d; rw [h.bal a d]; simp only [hiff]
  unfold cancelAllStep at e
  split at e
  · rename_i hsel
    have hsel' : m.pairIds = [] ∨ x.pairId ∈ m.pairIds := by
      rcases hsel with h1 | h1
      · exact Or.inl (List.length_eq_zero_iff.1 h1)
      · exact Or.inr h1
    split at e
    · cases e
    · rename_i pair hpair
      obtain ⟨hp, hpid⟩ := h.wf.getPair_iff.1 hpair
      rw [h.frame.pairs] at hp
      split at e
      · rename_i hc
        by_cases hd : x.done = true
        · rw [finishOrder_done hd e]
          refine skip ?_
          rintro ⟨_, h2, _⟩
          rw [← done_iff] at h2; rw [hd] at h2; cases h2
        · have hd : x.done = false := by simpa using hd
          have hT : CancelTarget m s0 x := ⟨hx.2, (done_iff x).1 hd, hsel', pair, hp, hpid, hc.2⟩
          have hrem := (h.wf.ordsOk x hxt).1
          have ha := finishOrder_atom hxt hd (SameOrder.refl x) hd rfl hrem e
          have hos := (finishOrder_frame hd e).1
          have hmv := finishOrder_effect h.wf hd hrem e
          refine ⟨atom_wf h.wf ha, h.pending.upsert h.wf hos rfl, fun y hy => h.mine y (by simp [hy]),
            h.frame.trans (finishOrder_same hd e), ?_, ?_, hmv.2.trans h.supply⟩
          · rw [hos, upsert_existing h.wf.ordersS (v := { x with status := .canceled })
            (show lookup OrderRec.key (OrderRec.key { x with status := .canceled }) t.orders = some x from h.wf.ordersS.lookup_self hxt),
            h.orders, List.map_map]
            apply List.map_congr_left
            intro o ho
            have hkey : ∀ (c : Prop) [Decidable c], (if c then { o with status := .canceled } else o).key = o.key := by
              intro c _; split <;> rfl
            simp only [Function.comp]
            rw [hkey]
            by_cases e2 : o = x
            · subst e2
              rw [if_pos (show o.key = OrderRec.key { o with status := .canceled } from rfl), if_pos ⟨hnd.1, hT⟩]
            · rw [if_neg (show ¬ o.key = OrderRec.key { x with status := .canceled } from fun e3 => e2 (hw0.ordersS.inj ho hx.1 e3))]
              simp only [List.mem_cons, e2, false_or]
          · intro a d
            rw [hmv.1 a d, h.bal a d]
            rw [sum_change (g := fun o => if o ∉ (x :: xs) ∧ CancelTarget m s0 o then refundEffect o a d else 0)
              (g' := fun o => if o ∉ xs ∧ CancelTarget m s0 o then refundEffect o a d else 0) hord0 hx.1 ?_]
            · simp only [if_pos (show x ∉ xs ∧ CancelTarget m s0 x from ⟨hnd.1, hT⟩)]
              rw [if_neg (show ¬ (x ∉ (x :: xs) ∧ CancelTarget m s0 x) by simp)]
              unfold refundEffect
              ring
            · intro y _ hy
              simp only [List.mem_cons, hy, false_or]
      · rename_i hc
        have e := Option.some.inj e
        subst e
        refine skip ?_
        rintro ⟨_, h2, _, q, hq, e1, e2⟩
        have : q = pair := hw0.key_pair hq hp (by rw [e1, hpid])
        subst this
        refine hc ⟨?_, e2⟩
        intro e3
        unfold Unfinished at h2
        rw [e3] at h2
        simp at h2
  · rename_i hsel
    have e := Option.some.inj e
    subst e
    refine skip ?_
    rintro ⟨_, _, h3, _⟩
    rcases h3 with h3 | h3
    · exact hsel (Or.inl (by rw [h3]; rfl))
    · exact hsel (Or.inr h3)

open Classical in
theorem cancelAll_spec (hw : WF s) {m : MsgCancelAllOrders} (h : cancelAllOrders m s = some s') :
    s'.orders = s.orders.map (fun o => if CancelTarget m s o then { o with status := .canceled } else o) ∧
    (∀ a d, s'.bank.bal a d = s.bank.bal a d + (s.orders.map (fun o => if CancelTarget m s o then refundEffect o a d else 0)).sum) ∧
    s'.bank.supply = s.bank.supply ∧ SameFrame s s' := by
  unfold cancelAllOrders at h
  split at h
  · cases h
  · have := forEach_inv (f := cancelAllStep m.pairIds) (fun xs t => Cancelling m s xs t) (fun x xs t t' => cancelling_step hw) _ _ _ ?_ h
    · refine ⟨?_, ?_, this.supply, this.frame⟩
      · rw [this.orders]; simp only [List.not_mem_nil, not_false_eq_true, true_and]
      · intro a d; rw [this.bal a d]; simp only [List.not_mem_nil, not_false_eq_true, true_and]
    · have hno : ∀ o ∈ s.orders, ¬ (o ∉ s.ordersBy m.orderer ∧ CancelTarget m s o) := by
        rintro o ho ⟨h1, h2, _⟩
        exact h1 (List.mem_filter.2 ⟨ho, by simpa using h2⟩)
      refine ⟨hw, hw.pending _, ?_, SameFrame.refl s, ?_, ?_, rfl⟩
      · intro x hx
        have := List.mem_filter.1 hx
        exact ⟨this.1, by simpa using this.2⟩
      · conv_lhs => rw [← List.map_id s.orders]
        apply List.map_congr_left
        intro o ho
        rw [if_neg (hno o ho)]; rfl
      · intro a d
        have : s.orders.map (fun o => if o ∉ s.ordersBy m.orderer ∧ CancelTarget m s o then refundEffect o a d else 0) =
            s.orders.map (fun _ => 0) := List.map_congr_left (fun o ho => if_neg (hno o ho))
        rw [this]; simp

end Verif.Dex

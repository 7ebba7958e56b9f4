import Verif.Proofs.Disk
/-! # Requests, orders and counters in the byte store -/
namespace Verif.Dex.KV
open Verif Verif.Dex Verif.Dex.Keys Verif.Spec.Keys Verif.Spec

variable {enc : Enc} {s : State} {kv kv' : Store}

theorem image_depositSaved {old r : DepReq} (h : Image enc s kv) (ho : old ∈ s.deposits)
    (hs : r.poolId = old.poolId ∧ r.id = old.id ∧ r.depositor = old.depositor) : Image enc (s.setDeposit r) (setDepositRequest r kv) := by
  obtain ⟨e1, e2, e3⟩ := hs
  have hk : r.key = old.key := by unfold DepReq.key; rw [e1, e2]
  have st := h.stor.deposits old ho
  refine ⟨(h.rep.set (e := .deposit (u64 r.poolId) (u64 r.id)) trivial rfl (.deposit r)).congr ?_, { h.stor with deposits := ?_ },
    h.pairsS, h.poolsS, h.depsS.upsert r, h.wdsS, h.ordersS, h.pairIds, h.poolIds, h.pairUniq, h.mm⟩
  · intro e v
    cases e with
    | deposit i j =>
      simp only [Holds, putH, State.setDeposit, Entity.deposit.injEq, ne_eq]
      rw [exists_upsert h.depsS]
      constructor
      · rintro (⟨rfl, rfl, rfl⟩ | ⟨q, hq, hne, rfl, rfl, rfl⟩)
        · exact Or.inl ⟨⟨rfl, rfl⟩, rfl⟩
        · refine Or.inr ⟨fun e => hne ?_, q, hq, rfl, rfl, rfl⟩
          have sq := h.stor.deposits q hq
          rw [e1, e2, u64_inj sq.1 st.1, u64_inj sq.2.1 st.2.1] at e
          unfold DepReq.key; rw [e.1, e.2, e1, e2]
      · rintro (⟨⟨rfl, rfl⟩, rfl⟩ | ⟨hne, q, hq, rfl, rfl, rfl⟩)
        · exact Or.inl ⟨rfl, rfl, rfl⟩
        · refine Or.inr ⟨q, hq, fun e => hne ?_, rfl, rfl, rfl⟩
          have g1 : q.poolId = r.poolId := congrArg Prod.fst e
          have g2 : q.id = r.id := congrArg Prod.snd e
          rw [g1, g2]; exact ⟨rfl, rfl⟩
    | depositIndex a i j =>
      other
      rw [exists_upsert_old h.depsS ho hk (by rw [e1, e2, e3])]
    | _ => other
  · exact mem_upsert_split h.depsS (by rw [e1, e2, e3]; exact st) h.stor.deposits

theorem image_depositCreated {r : DepReq} (h : Image enc s kv)
    (hnew : ∀ q ∈ s.deposits, ¬ (q.poolId = r.poolId ∧ q.id = r.id))
    (hfit : r.poolId < 2 ^ 64 ∧ r.id < 2 ^ 64) (ha : Name (enc.addr (.user r.depositor)))
    (hk : setDepositRequestIndex enc r (setDepositRequest r kv) = some kv') : Image enc (s.setDeposit r) kv' := by
  have hkey : ∀ q ∈ s.deposits, q.key ≠ r.key := fun q hq e => hnew q hq ⟨congrArg Prod.fst e, congrArg Prod.snd e⟩
  have hu : ∀ q ∈ s.deposits, ¬ (u64 q.poolId = u64 r.poolId ∧ u64 q.id = u64 r.id) := by
    intro q hq e
    have sq := h.stor.deposits q hq
    rw [u64_inj sq.1 hfit.1, u64_inj sq.2.1 hfit.2] at e
    exact hnew q hq e
  have R1 := h.rep.set (e := .deposit (u64 r.poolId) (u64 r.id)) trivial rfl (.deposit r)
  obtain ⟨k, hk1, rfl⟩ := Option.map_eq_some_iff.1 hk
  have R2 := R1.set (e := .depositIndex (enc.addr (.user r.depositor)) (u64 r.poolId) (u64 r.id)) ha hk1 .empty
  refine ⟨R2.congr ?_, { h.stor with deposits := ?_ },
    h.pairsS, h.poolsS, h.depsS.upsert r, h.wdsS, h.ordersS, h.pairIds, h.poolIds, h.pairUniq, h.mm⟩
  · intro e v
    cases e with
    | deposit i j =>
      simp only [Holds, putH, State.setDeposit, Entity.deposit.injEq, ne_eq, reduceCtorEq, false_and, not_false_eq_true, true_and, false_or]
      rw [exists_upsert_new h.depsS hkey]
      constructor
      · rintro (⟨rfl, rfl, rfl⟩ | ⟨q, hq, rfl, rfl, rfl⟩)
        · exact Or.inl ⟨⟨rfl, rfl⟩, rfl⟩
        · exact Or.inr ⟨hu q hq, q, hq, rfl, rfl, rfl⟩
      · rintro (⟨⟨rfl, rfl⟩, rfl⟩ | ⟨_, q, hq, rfl, rfl, rfl⟩)
        · exact Or.inl ⟨rfl, rfl, rfl⟩
        · exact Or.inr ⟨q, hq, rfl, rfl, rfl⟩
    | depositIndex a i j =>
      simp only [Holds, putH, State.setDeposit, Entity.depositIndex.injEq, ne_eq, reduceCtorEq, false_and, not_false_eq_true, true_and, false_or]
      rw [exists_upsert_new h.depsS hkey]
      constructor
      · rintro ⟨rfl, ⟨rfl, rfl, rfl⟩ | ⟨q, hq, rfl, rfl, rfl⟩⟩
        · exact Or.inl ⟨⟨rfl, rfl, rfl⟩, rfl⟩
        · exact Or.inr ⟨fun e => hu q hq e.2, rfl, q, hq, rfl, rfl, rfl⟩
      · rintro (⟨⟨rfl, rfl, rfl⟩, rfl⟩ | ⟨_, rfl, q, hq, rfl, rfl, rfl⟩)
        · exact ⟨rfl, Or.inl ⟨rfl, rfl, rfl⟩⟩
        · exact ⟨rfl, Or.inr ⟨q, hq, rfl, rfl, rfl⟩⟩
    | _ => other
  · exact mem_upsert_split h.depsS ⟨hfit.1, hfit.2, ha⟩ h.stor.deposits

theorem image_depositDeleted {r : DepReq} (h : Image enc s kv) (hr : r ∈ s.deposits) (hk : deleteDepositRequest enc r kv = some kv') :
    Image enc { s with deposits := s.deposits.filter (fun q => ¬ (q.poolId = r.poolId ∧ q.id = r.id)) } kv' := by
  have st := h.stor.deposits r hr
  have hu : ∀ q ∈ s.deposits, (u64 q.poolId = u64 r.poolId ∧ u64 q.id = u64 r.id) ↔ (q.poolId = r.poolId ∧ q.id = r.id) := by
    intro q hq
    have sq := h.stor.deposits q hq
    rw [u64_inj sq.1 st.1, u64_inj sq.2.1 st.2.1]
  have hsame : ∀ q ∈ s.deposits, q.poolId = r.poolId ∧ q.id = r.id → q = r := by
    intro q hq e
    refine h.depsS.inj hq hr ?_
    unfold DepReq.key; rw [e.1, e.2]
  have R1 := h.rep.delete (e := .deposit (u64 r.poolId) (u64 r.id)) trivial rfl
  obtain ⟨k, hk1, rfl⟩ := Option.map_eq_some_iff.1 hk
  have R2 := R1.delete (e := .depositIndex (enc.addr (.user r.depositor)) (u64 r.poolId) (u64 r.id)) st.2.2 hk1
  refine ⟨R2.congr ?_, { h.stor with deposits := fun q hq => h.stor.deposits q (List.mem_filter.1 hq).1 },
    h.pairsS, h.poolsS, h.depsS.filter _, h.wdsS, h.ordersS, h.pairIds, h.poolIds, h.pairUniq, h.mm⟩
  intro e v
  cases e with
  | deposit i j =>
    simp only [Holds, delH, Entity.deposit.injEq, ne_eq, reduceCtorEq, not_false_eq_true, true_and, List.mem_filter, decide_eq_true_eq]
    constructor
    · rintro ⟨q, ⟨hq, hn⟩, rfl, rfl, rfl⟩
      exact ⟨fun e => hn ((hu q hq).1 e), q, hq, rfl, rfl, rfl⟩
    · rintro ⟨hn, q, hq, rfl, rfl, rfl⟩
      exact ⟨q, ⟨hq, fun e => hn ((hu q hq).2 e)⟩, rfl, rfl, rfl⟩
  | depositIndex a i j =>
    simp only [Holds, delH, Entity.depositIndex.injEq, ne_eq, reduceCtorEq, not_false_eq_true, true_and, List.mem_filter, decide_eq_true_eq]
    constructor
    · rintro ⟨rfl, q, ⟨hq, hn⟩, rfl, rfl, rfl⟩
      exact ⟨fun e => hn ((hu q hq).1 e.2), rfl, q, hq, rfl, rfl, rfl⟩
    · rintro ⟨hn, rfl, q, hq, rfl, rfl, rfl⟩
      refine ⟨rfl, q, ⟨hq, fun e => hn ?_⟩, rfl, rfl, rfl⟩
      rw [hsame q hq e]; exact ⟨rfl, rfl, rfl⟩
  | _ => other

theorem image_withdrawSaved {old r : WdReq} (h : Image enc s kv) (ho : old ∈ s.withdraws)
    (hs : r.poolId = old.poolId ∧ r.id = old.id ∧ r.withdrawer = old.withdrawer) : Image enc (s.setWithdraw r) (setWithdrawRequest r kv) := by
  obtain ⟨e1, e2, e3⟩ := hs
  have hk : r.key = old.key := by unfold WdReq.key; rw [e1, e2]
  have st := h.stor.withdraws old ho
  refine ⟨(h.rep.set (e := .withdraw (u64 r.poolId) (u64 r.id)) trivial rfl (.withdraw r)).congr ?_, { h.stor with withdraws := ?_ },
    h.pairsS, h.poolsS, h.depsS, h.wdsS.upsert r, h.ordersS, h.pairIds, h.poolIds, h.pairUniq, h.mm⟩
  · intro e v
    cases e with
    | withdraw i j =>
      simp only [Holds, putH, State.setWithdraw, Entity.withdraw.injEq, ne_eq]
      rw [exists_upsert h.wdsS]
      constructor
      · rintro (⟨rfl, rfl, rfl⟩ | ⟨q, hq, hne, rfl, rfl, rfl⟩)
        · exact Or.inl ⟨⟨rfl, rfl⟩, rfl⟩
        · refine Or.inr ⟨fun e => hne ?_, q, hq, rfl, rfl, rfl⟩
          have sq := h.stor.withdraws q hq
          rw [e1, e2, u64_inj sq.1 st.1, u64_inj sq.2.1 st.2.1] at e
          unfold WdReq.key; rw [e.1, e.2, e1, e2]
      · rintro (⟨⟨rfl, rfl⟩, rfl⟩ | ⟨hne, q, hq, rfl, rfl, rfl⟩)
        · exact Or.inl ⟨rfl, rfl, rfl⟩
        · refine Or.inr ⟨q, hq, fun e => hne ?_, rfl, rfl, rfl⟩
          have g1 : q.poolId = r.poolId := congrArg Prod.fst e
          have g2 : q.id = r.id := congrArg Prod.snd e
          rw [g1, g2]; exact ⟨rfl, rfl⟩
    | withdrawIndex a i j =>
      other
      rw [exists_upsert_old h.wdsS ho hk (by rw [e1, e2, e3])]
    | _ => other
  · exact mem_upsert_split h.wdsS (by rw [e1, e2, e3]; exact st) h.stor.withdraws

theorem image_withdrawCreated {r : WdReq} (h : Image enc s kv)
    (hnew : ∀ q ∈ s.withdraws, ¬ (q.poolId = r.poolId ∧ q.id = r.id))
    (hfit : r.poolId < 2 ^ 64 ∧ r.id < 2 ^ 64) (ha : Name (enc.addr (.user r.withdrawer)))
    (hk : setWithdrawRequestIndex enc r (setWithdrawRequest r kv) = some kv') : Image enc (s.setWithdraw r) kv' := by
  have hkey : ∀ q ∈ s.withdraws, q.key ≠ r.key := fun q hq e => hnew q hq ⟨congrArg Prod.fst e, congrArg Prod.snd e⟩
  have hu : ∀ q ∈ s.withdraws, ¬ (u64 q.poolId = u64 r.poolId ∧ u64 q.id = u64 r.id) := by
    intro q hq e
    have sq := h.stor.withdraws q hq
    rw [u64_inj sq.1 hfit.1, u64_inj sq.2.1 hfit.2] at e
    exact hnew q hq e
  have R1 := h.rep.set (e := .withdraw (u64 r.poolId) (u64 r.id)) trivial rfl (.withdraw r)
  obtain ⟨k, hk1, rfl⟩ := Option.map_eq_some_iff.1 hk
  have R2 := R1.set (e := .withdrawIndex (enc.addr (.user r.withdrawer)) (u64 r.poolId) (u64 r.id)) ha hk1 .empty
  refine ⟨R2.congr ?_, { h.stor with withdraws := ?_ },
    h.pairsS, h.poolsS, h.depsS, h.wdsS.upsert r, h.ordersS, h.pairIds, h.poolIds, h.pairUniq, h.mm⟩
  · intro e v
    cases e with
    | withdraw i j =>
      simp only [Holds, putH, State.setWithdraw, Entity.withdraw.injEq, ne_eq, reduceCtorEq, false_and, not_false_eq_true, true_and, false_or]
      rw [exists_upsert_new h.wdsS hkey]
      constructor
      · rintro (⟨rfl, rfl, rfl⟩ | ⟨q, hq, rfl, rfl, rfl⟩)
        · exact Or.inl ⟨⟨rfl, rfl⟩, rfl⟩
        · exact Or.inr ⟨hu q hq, q, hq, rfl, rfl, rfl⟩
      · rintro (⟨⟨rfl, rfl⟩, rfl⟩ | ⟨_, q, hq, rfl, rfl, rfl⟩)
        · exact Or.inl ⟨rfl, rfl, rfl⟩
        · exact Or.inr ⟨q, hq, rfl, rfl, rfl⟩
    | withdrawIndex a i j =>
      simp only [Holds, putH, State.setWithdraw, Entity.withdrawIndex.injEq, ne_eq, reduceCtorEq, false_and, not_false_eq_true, true_and, false_or]
      rw [exists_upsert_new h.wdsS hkey]
      constructor
      · rintro ⟨rfl, ⟨rfl, rfl, rfl⟩ | ⟨q, hq, rfl, rfl, rfl⟩⟩
        · exact Or.inl ⟨⟨rfl, rfl, rfl⟩, rfl⟩
        · exact Or.inr ⟨fun e => hu q hq e.2, rfl, q, hq, rfl, rfl, rfl⟩
      · rintro (⟨⟨rfl, rfl, rfl⟩, rfl⟩ | ⟨_, rfl, q, hq, rfl, rfl, rfl⟩)
        · exact ⟨rfl, Or.inl ⟨rfl, rfl, rfl⟩⟩
        · exact ⟨rfl, Or.inr ⟨q, hq, rfl, rfl, rfl⟩⟩
    | _ => other
  · exact mem_upsert_split h.wdsS ⟨hfit.1, hfit.2, ha⟩ h.stor.withdraws

theorem image_withdrawDeleted {r : WdReq} (h : Image enc s kv) (hr : r ∈ s.withdraws) (hk : deleteWithdrawRequest enc r kv = some kv') :
    Image enc { s with withdraws := s.withdraws.filter (fun q => ¬ (q.poolId = r.poolId ∧ q.id = r.id)) } kv' := by
  have st := h.stor.withdraws r hr
  have hu : ∀ q ∈ s.withdraws, (u64 q.poolId = u64 r.poolId ∧ u64 q.id = u64 r.id) ↔ (q.poolId = r.poolId ∧ q.id = r.id) := by
    intro q hq
    have sq := h.stor.withdraws q hq
    rw [u64_inj sq.1 st.1, u64_inj sq.2.1 st.2.1]
  have hsame : ∀ q ∈ s.withdraws, q.poolId = r.poolId ∧ q.id = r.id → q = r := by
    intro q hq e
    refine h.wdsS.inj hq hr ?_
    unfold WdReq.key; rw [e.1, e.2]
  have R1 := h.rep.delete (e := .withdraw (u64 r.poolId) (u64 r.id)) trivial rfl
  obtain ⟨k, hk1, rfl⟩ := Option.map_eq_some_iff.1 hk
  have R2 := R1.delete (e := .withdrawIndex (enc.addr (.user r.withdrawer)) (u64 r.poolId) (u64 r.id)) st.2.2 hk1
  refine ⟨R2.congr ?_, { h.stor with withdraws := fun q hq => h.stor.withdraws q (List.mem_filter.1 hq).1 },
    h.pairsS, h.poolsS, h.depsS, h.wdsS.filter _, h.ordersS, h.pairIds, h.poolIds, h.pairUniq, h.mm⟩
  intro e v
  cases e with
  | withdraw i j =>
    simp only [Holds, delH, Entity.withdraw.injEq, ne_eq, reduceCtorEq, not_false_eq_true, true_and, List.mem_filter, decide_eq_true_eq]
    constructor
    · rintro ⟨q, ⟨hq, hn⟩, rfl, rfl, rfl⟩
      exact ⟨fun e => hn ((hu q hq).1 e), q, hq, rfl, rfl, rfl⟩
    · rintro ⟨hn, q, hq, rfl, rfl, rfl⟩
      exact ⟨q, ⟨hq, fun e => hn ((hu q hq).2 e)⟩, rfl, rfl, rfl⟩
  | withdrawIndex a i j =>
    simp only [Holds, delH, Entity.withdrawIndex.injEq, ne_eq, reduceCtorEq, not_false_eq_true, true_and, List.mem_filter, decide_eq_true_eq]
    constructor
    · rintro ⟨rfl, q, ⟨hq, hn⟩, rfl, rfl, rfl⟩
      exact ⟨fun e => hn ((hu q hq).1 e.2), rfl, q, hq, rfl, rfl, rfl⟩
    · rintro ⟨hn, rfl, q, hq, rfl, rfl, rfl⟩
      refine ⟨rfl, q, ⟨hq, fun e => hn ?_⟩, rfl, rfl, rfl⟩
      rw [hsame q hq e]; exact ⟨rfl, rfl, rfl⟩
  | _ => other

theorem image_orderSaved {old r : OrderRec} (h : Image enc s kv) (ho : old ∈ s.orders)
    (hs : r.pairId = old.pairId ∧ r.id = old.id ∧ r.orderer = old.orderer) : Image enc (s.setOrder r) (KV.setOrder r kv) := by
  obtain ⟨e1, e2, e3⟩ := hs
  have hk : r.key = old.key := by unfold OrderRec.key; rw [e1, e2]
  have st := h.stor.orders old ho
  refine ⟨(h.rep.set (e := .order (u64 r.pairId) (u64 r.id)) trivial rfl (.order r)).congr ?_, { h.stor with orders := ?_ },
    h.pairsS, h.poolsS, h.depsS, h.wdsS, h.ordersS.upsert r, h.pairIds, h.poolIds, h.pairUniq, h.mm⟩
  · intro e v
    cases e with
    | order i j =>
      simp only [Holds, putH, State.setOrder, Entity.order.injEq, ne_eq]
      rw [exists_upsert h.ordersS]
      constructor
      · rintro (⟨rfl, rfl, rfl⟩ | ⟨q, hq, hne, rfl, rfl, rfl⟩)
        · exact Or.inl ⟨⟨rfl, rfl⟩, rfl⟩
        · refine Or.inr ⟨fun e => hne ?_, q, hq, rfl, rfl, rfl⟩
          have sq := h.stor.orders q hq
          rw [e1, e2, u64_inj sq.1 st.1, u64_inj sq.2.1 st.2.1] at e
          unfold OrderRec.key; rw [e.1, e.2, e1, e2]
      · rintro (⟨⟨rfl, rfl⟩, rfl⟩ | ⟨hne, q, hq, rfl, rfl, rfl⟩)
        · exact Or.inl ⟨rfl, rfl, rfl⟩
        · refine Or.inr ⟨q, hq, fun e => hne ?_, rfl, rfl, rfl⟩
          have g1 : q.pairId = r.pairId := congrArg Prod.fst e
          have g2 : q.id = r.id := congrArg Prod.snd e
          rw [g1, g2]; exact ⟨rfl, rfl⟩
    | orderIndex a i j =>
      other
      rw [exists_upsert_old h.ordersS ho hk (by rw [e1, e2, e3])]
    | _ => other
  · exact mem_upsert_split h.ordersS (by rw [e1, e2, e3]; exact st) h.stor.orders

theorem image_orderCreated {r : OrderRec} (h : Image enc s kv)
    (hnew : ∀ q ∈ s.orders, ¬ (q.pairId = r.pairId ∧ q.id = r.id))
    (hfit : r.pairId < 2 ^ 64 ∧ r.id < 2 ^ 64) (ha : Name (enc.addr (.user r.orderer)))
    (hk : setOrderIndex enc r (KV.setOrder r kv) = some kv') : Image enc (s.setOrder r) kv' := by
  have hkey : ∀ q ∈ s.orders, q.key ≠ r.key := fun q hq e => hnew q hq ⟨congrArg Prod.fst e, congrArg Prod.snd e⟩
  have hu : ∀ q ∈ s.orders, ¬ (u64 q.pairId = u64 r.pairId ∧ u64 q.id = u64 r.id) := by
    intro q hq e
    have sq := h.stor.orders q hq
    rw [u64_inj sq.1 hfit.1, u64_inj sq.2.1 hfit.2] at e
    exact hnew q hq e
  have R1 := h.rep.set (e := .order (u64 r.pairId) (u64 r.id)) trivial rfl (.order r)
  obtain ⟨k, hk1, rfl⟩ := Option.map_eq_some_iff.1 hk
  have R2 := R1.set (e := .orderIndex (enc.addr (.user r.orderer)) (u64 r.pairId) (u64 r.id)) ha hk1 .empty
  refine ⟨R2.congr ?_, { h.stor with orders := ?_ },
    h.pairsS, h.poolsS, h.depsS, h.wdsS, h.ordersS.upsert r, h.pairIds, h.poolIds, h.pairUniq, h.mm⟩
  · intro e v
    cases e with
    | order i j =>
      simp only [Holds, putH, State.setOrder, Entity.order.injEq, ne_eq, reduceCtorEq, false_and, not_false_eq_true, true_and, false_or]
      rw [exists_upsert_new h.ordersS hkey]
      constructor
      · rintro (⟨rfl, rfl, rfl⟩ | ⟨q, hq, rfl, rfl, rfl⟩)
        · exact Or.inl ⟨⟨rfl, rfl⟩, rfl⟩
        · exact Or.inr ⟨hu q hq, q, hq, rfl, rfl, rfl⟩
      · rintro (⟨⟨rfl, rfl⟩, rfl⟩ | ⟨_, q, hq, rfl, rfl, rfl⟩)
        · exact Or.inl ⟨rfl, rfl, rfl⟩
        · exact Or.inr ⟨q, hq, rfl, rfl, rfl⟩
    | orderIndex a i j =>
      simp only [Holds, putH, State.setOrder, Entity.orderIndex.injEq, ne_eq, reduceCtorEq, false_and, not_false_eq_true, true_and, false_or]
      rw [exists_upsert_new h.ordersS hkey]
      constructor
      · rintro ⟨rfl, ⟨rfl, rfl, rfl⟩ | ⟨q, hq, rfl, rfl, rfl⟩⟩
        · exact Or.inl ⟨⟨rfl, rfl, rfl⟩, rfl⟩
        · exact Or.inr ⟨fun e => hu q hq e.2, rfl, q, hq, rfl, rfl, rfl⟩
      · rintro (⟨⟨rfl, rfl, rfl⟩, rfl⟩ | ⟨_, rfl, q, hq, rfl, rfl, rfl⟩)
        · exact ⟨rfl, Or.inl ⟨rfl, rfl, rfl⟩⟩
        · exact ⟨rfl, Or.inr ⟨q, hq, rfl, rfl, rfl⟩⟩
    | _ => other
  · exact mem_upsert_split h.ordersS ⟨hfit.1, hfit.2, ha⟩ h.stor.orders

theorem image_orderDeleted {r : OrderRec} (h : Image enc s kv) (hr : r ∈ s.orders) (hk : deleteOrder enc r kv = some kv') :
    Image enc { s with orders := s.orders.filter (fun q => ¬ (q.pairId = r.pairId ∧ q.id = r.id)) } kv' := by
  have st := h.stor.orders r hr
  have hu : ∀ q ∈ s.orders, (u64 q.pairId = u64 r.pairId ∧ u64 q.id = u64 r.id) ↔ (q.pairId = r.pairId ∧ q.id = r.id) := by
    intro q hq
    have sq := h.stor.orders q hq
    rw [u64_inj sq.1 st.1, u64_inj sq.2.1 st.2.1]
  have hsame : ∀ q ∈ s.orders, q.pairId = r.pairId ∧ q.id = r.id → q = r := by
    intro q hq e
    refine h.ordersS.inj hq hr ?_
    unfold OrderRec.key; rw [e.1, e.2]
  have R1 := h.rep.delete (e := .order (u64 r.pairId) (u64 r.id)) trivial rfl
  obtain ⟨k, hk1, rfl⟩ := Option.map_eq_some_iff.1 hk
  have R2 := R1.delete (e := .orderIndex (enc.addr (.user r.orderer)) (u64 r.pairId) (u64 r.id)) st.2.2 hk1
  refine ⟨R2.congr ?_, { h.stor with orders := fun q hq => h.stor.orders q (List.mem_filter.1 hq).1 },
    h.pairsS, h.poolsS, h.depsS, h.wdsS, h.ordersS.filter _, h.pairIds, h.poolIds, h.pairUniq, h.mm⟩
  intro e v
  cases e with
  | order i j =>
    simp only [Holds, delH, Entity.order.injEq, ne_eq, reduceCtorEq, not_false_eq_true, true_and, List.mem_filter, decide_eq_true_eq]
    constructor
    · rintro ⟨q, ⟨hq, hn⟩, rfl, rfl, rfl⟩
      exact ⟨fun e => hn ((hu q hq).1 e), q, hq, rfl, rfl, rfl⟩
    · rintro ⟨hn, q, hq, rfl, rfl, rfl⟩
      exact ⟨q, ⟨hq, fun e => hn ((hu q hq).2 e)⟩, rfl, rfl, rfl⟩
  | orderIndex a i j =>
    simp only [Holds, delH, Entity.orderIndex.injEq, ne_eq, reduceCtorEq, not_false_eq_true, true_and, List.mem_filter, decide_eq_true_eq]
    constructor
    · rintro ⟨rfl, q, ⟨hq, hn⟩, rfl, rfl, rfl⟩
      exact ⟨fun e => hn ((hu q hq).1 e.2), rfl, q, hq, rfl, rfl, rfl⟩
    · rintro ⟨hn, rfl, q, hq, rfl, rfl, rfl⟩
      refine ⟨rfl, q, ⟨hq, fun e => hn ?_⟩, rfl, rfl, rfl⟩
      rw [hsame q hq e]; exact ⟨rfl, rfl, rfl⟩
  | _ => other

theorem image_counterSaved (hsp : Spelling enc) {orderer pairId n : Nat} (h : Image enc s kv) (hfit : pairId < 2 ^ 64)
    (ha : Name (enc.addr (.user orderer))) (hk : setNumMMOrders enc orderer pairId (UInt32.ofNat n) kv = some kv') :
    Image enc (s.setNumMM orderer pairId (some n)) kv' := by
  obtain ⟨k, hk1, rfl⟩ := Option.map_eq_some_iff.1 hk
  have R1 := h.rep.set (e := .numMM (enc.addr (.user orderer)) (u64 pairId)) ha hk1 (.count (UInt32.ofNat n).toUInt64)
  refine ⟨R1.congr ?_, { h.stor with }, h.pairsS, h.poolsS, h.depsS, h.wdsS, h.ordersS, h.pairIds, h.poolIds, h.pairUniq, ?_⟩
  · intro e v
    cases e with
    | numMM a i =>
      simp only [Holds, putH, State.setNumMM, Entity.numMM.injEq, ne_eq]
      constructor
      · rintro ⟨o, p, m, hm, rfl, rfl, rfl⟩
        by_cases e : o = orderer ∧ p = pairId
        · rw [if_pos e] at hm
          obtain ⟨rfl, rfl⟩ := e
          cases hm
          exact Or.inl ⟨⟨rfl, rfl⟩, rfl⟩
        · rw [if_neg e] at hm
          refine Or.inr ⟨fun x => e ⟨?_, ?_⟩, o, p, m, hm, rfl, rfl, rfl⟩
          · exact Addr.user.inj (hsp.addr _ _ (h.mm o p m hm).2 x.1)
          · exact (u64_inj (h.mm o p m hm).1 hfit).1 x.2
      · rintro (⟨⟨rfl, rfl⟩, rfl⟩ | ⟨hn, o, p, m, hm, rfl, rfl, rfl⟩)
        · exact ⟨orderer, pairId, n, by simp, rfl, rfl, rfl⟩
        · refine ⟨o, p, m, ?_, rfl, rfl, rfl⟩
          rw [if_neg]
          · exact hm
          · rintro ⟨rfl, rfl⟩; exact hn ⟨rfl, rfl⟩
    | _ => other
  · intro a p m hm
    simp only [State.setNumMM] at hm
    by_cases e : a = orderer ∧ p = pairId
    · rw [e.1, e.2]; exact ⟨hfit, ha⟩
    · rw [if_neg e] at hm; exact h.mm a p m hm

theorem image_counterDeleted (hsp : Spelling enc) {orderer pairId : Nat} (h : Image enc s kv) (hfit : pairId < 2 ^ 64)
    (ha : Name (enc.addr (.user orderer))) (hk : deleteNumMMOrders enc orderer pairId kv = some kv') :
    Image enc (s.setNumMM orderer pairId none) kv' := by
  obtain ⟨k, hk1, rfl⟩ := Option.map_eq_some_iff.1 hk
  have R1 := h.rep.delete (e := .numMM (enc.addr (.user orderer)) (u64 pairId)) ha hk1
  refine ⟨R1.congr ?_, { h.stor with }, h.pairsS, h.poolsS, h.depsS, h.wdsS, h.ordersS, h.pairIds, h.poolIds, h.pairUniq, ?_⟩
  · intro e v
    cases e with
    | numMM a i =>
      simp only [Holds, delH, State.setNumMM, Entity.numMM.injEq, ne_eq]
      constructor
      · rintro ⟨o, p, m, hm, rfl, rfl, rfl⟩
        by_cases e : o = orderer ∧ p = pairId
        · rw [if_pos e] at hm
          cases hm
        · rw [if_neg e] at hm
          refine ⟨fun x => e ⟨?_, ?_⟩, o, p, m, hm, rfl, rfl, rfl⟩
          · exact Addr.user.inj (hsp.addr _ _ (h.mm o p m hm).2 x.1)
          · exact (u64_inj (h.mm o p m hm).1 hfit).1 x.2
      · rintro ⟨hn, o, p, m, hm, rfl, rfl, rfl⟩
        refine ⟨o, p, m, ?_, rfl, rfl, rfl⟩
        rw [if_neg]
        · exact hm
        · rintro ⟨rfl, rfl⟩; exact hn ⟨rfl, rfl⟩
    | _ => other
  · intro a p m hm
    simp only [State.setNumMM] at hm
    by_cases e : a = orderer ∧ p = pairId
    · rw [if_pos e] at hm; cases hm
    · rw [if_neg e] at hm; exact h.mm a p m hm

/-- The byte store is always the image of the records. -/
theorem _root_.Verif.Spec.Written.image (hsp : Spelling enc) (h : Written enc s kv) : Image enc s kv := by
  induction h with
  | genesis h => exact image_genesis h
  | idle h hs ih => exact image_idle ih hs
  | pairCreated p h hid hnew hfit hb hq ih => exact image_pairCreated hsp ih hid hnew hfit hb hq
  | pairSaved old p h ho hs ih => exact image_pairSaved ih ho hs
  | poolCreated p h hid hfit hfit' ha hk ih => exact image_poolCreated hsp ih hid hfit hfit' ha hk
  | poolSaved old p h ho hs ih => exact image_poolSaved ih ho hs
  | depositCreated r h hnew hfit ha hk ih => exact image_depositCreated ih hnew hfit ha hk
  | depositSaved old r h ho hs ih => exact image_depositSaved ih ho hs
  | depositDeleted r h hr hk ih => exact image_depositDeleted ih hr hk
  | withdrawCreated r h hnew hfit ha hk ih => exact image_withdrawCreated ih hnew hfit ha hk
  | withdrawSaved old r h ho hs ih => exact image_withdrawSaved ih ho hs
  | withdrawDeleted r h hr hk ih => exact image_withdrawDeleted ih hr hk
  | orderCreated o h hnew hfit ha hk ih => exact image_orderCreated ih hnew hfit ha hk
  | orderSaved old o h ho hs ih => exact image_orderSaved ih ho hs
  | orderDeleted o h ho hk ih => exact image_orderDeleted ih ho hk
  | counterSaved a p n h hfit ha hk ih => exact image_counterSaved hsp ih hfit ha hk
  | counterDeleted a p h hfit ha hk ih => exact image_counterDeleted hsp ih hfit ha hk

end Verif.Dex.KV

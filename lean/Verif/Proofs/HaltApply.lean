import Verif.Proofs.Halt
/-! # Applying the result of a conserving matching does not fail (C61) -/
namespace Verif.Dex
open Verif Verif.Amm Verif.Spec

variable {s s' : State}

theorem finishOrder_isSome' {o : OrderRec} {status : OStatus} {p : Pair} (hp : s.getPair o.pairId = some p) (h0 : 0 ≤ o.remaining)
    (hb : o.remaining ≤ s.bank.bal (.pairEscrow p.id) o.offerDenom) : ∃ s', finishOrder o status s = some s' := by
  obtain ⟨b, hsend⟩ := send_isSome (b := s.bank) (src := .pairEscrow p.id) (dst := .user o.orderer) (cs := [⟨o.offerDenom, o.remaining⟩])
    (by intro c hc; rw [List.mem_singleton.1 hc]; exact h0)
    (by intro c hc; rw [List.mem_singleton.1 hc]; simpa [amountOf] using hb)
  unfold finishOrder
  rw [hp, Option.bind_some, hsend]
  split
  · exact ⟨_, rfl⟩
  · split
    · rename_i h; split at h <;> cases h
    · simp only; split <;> exact ⟨_, rfl⟩

/-- What the loop over the matched orders needs. -/
structure Applicable (pair : Pair) (s0 : State) (os : List Order) : Prop where
  paid : ∀ x ∈ os, 0 ≤ x.paid ∧ 0 ≤ x.received
  records : ∀ x ∈ os, ∀ oid b, x.kind = .user oid b → ∀ r ∈ s0.orders, r.pairId = pair.id → r.id = oid →
      r.offerDenom = pair.offerDenom x.dir ∧ r.demandDenom = pair.demandDenom x.dir ∧ x.paid ≤ r.remaining
  sides : ∀ x ∈ os, ∀ y ∈ os, x.isMatched = true → y.isMatched = true → ∀ id, x.kind = .pool id → y.kind = .pool id → x.dir = y.dir

/-- Invariant of the loop. -/
structure ApplyTotal (pair : Pair) (s0 : State) (ys xs : List Order) (st : ApplyState) : Prop where
  applying : Applying pair.id s0 ys xs st
  slack : ∀ d, 0 ≤ ledger st.s (.pairEscrow pair.id) d
  dirs : ∀ e ∈ st.dirs, ∃ y ∈ ys, y.isMatched = true ∧ y.kind = .pool e.1 ∧ e.2 = y.dir
  coins : ∀ t ∈ st.op, ∀ c ∈ t.amt, 0 ≤ c.amt
  dst : ∀ t ∈ st.op, t.dst ≠ .pairEscrow pair.id

theorem apply_total_step {pair : Pair} {s0 : State} (hp : s0.getPair pair.id = some pair) {ys xs : List Order} {x : Order} {st : ApplyState}
    (ha : Applicable pair s0 (ys ++ x :: xs)) (h : ApplyTotal pair s0 ys (x :: xs) st) :
    ∃ st', applyOrder pair x st = some st' ∧ ApplyTotal pair s0 (ys ++ [x]) xs st' := by
  have hA := h.applying
  have hmem : x ∈ ys ++ x :: xs := by simp
  have hxx := ha.records x hmem
  have hflow : ∀ st', applyOrder pair x st = some st' → ∀ d, _ := fun st' e d =>
    apply_flow hA (fun oid b hk r hr h1 h2 => ⟨(hxx oid b hk r hr h1 h2).1, (hxx oid b hk r hr h1 h2).2.1⟩) e (.pairEscrow pair.id) d
  by_cases hm : x.isMatched = false
  · have e : applyOrder pair x st = some st := by unfold applyOrder; rw [if_pos hm]
    exact ⟨st, e, apply_step hA e, h.slack, fun d hd => by
      obtain ⟨y, hy, hr⟩ := h.dirs d hd; exact ⟨y, by simp [hy], hr⟩, h.coins, h.dst⟩
  · have hm' : x.isMatched = true := by simpa using hm
    cases hk : x.kind with
    | user oid b =>
      obtain ⟨r, hr, r1, r2, r3⟩ := hA.users x (by simp) oid b hk
      have hrt : r ∈ st.s.orders := hA.keep r hr (fun _ y hy => by
        have := (List.pairwise_append.1 hA.distinct).2.2 y hy x (by simp)
        intro e
        have hx1 : userId x = some r.id := by unfold userId; rw [hk, r2]
        exact this (by rw [e]; simp) (by rw [e, hx1]))
      have hget : st.s.getOrder pair.id oid = some r := hA.wf.getOrder_iff.2 ⟨hrt, r1, r2⟩
      obtain ⟨q1, q2, q3⟩ := hxx oid b hk r hr r1 r2
      have hpaid := ha.paid x hmem
      have hpt : st.s.getPair r.pairId = some pair := by
        have e : st.s.pairs = s0.pairs := hA.frame.pairs
        rw [r1]; unfold State.getPair at hp ⊢; rw [e]; exact hp
      have hbal := escrow_holds hA.wf hrt r3
      have hsl := h.slack r.offerDenom
      rw [ledger_escrow, ← r1] at hsl
      have hfin : ∃ s', (if (r.fill x).openAmt = 0 then finishOrder (r.fill x) .completed st.s
          else some (st.s.setOrder { r.fill x with status := .partiallyMatched })) = some s' := by
        split
        · refine finishOrder_isSome' (p := pair) hpt ?_ ?_
          · show 0 ≤ r.remaining - x.paid; omega
          · show r.remaining - x.paid ≤ st.s.bank.bal (.pairEscrow pair.id) r.offerDenom
            rw [← r1]; omega
        · exact ⟨_, rfl⟩
      obtain ⟨s', hs'⟩ := hfin
      have e : applyOrder pair x st = some { st with s := s', op := st.op.queue (.pairEscrow pair.id) (.user r.orderer) [⟨r.demandDenom, x.received⟩] } := by
        unfold applyOrder
        rw [if_neg hm]
        simp only [hk, hget]
        rw [if_neg (by omega)]
        by_cases hz : r.openAmt - (x.amount - x.openAmt) = 0
        · rw [if_pos (show (r.fill x).openAmt = 0 from hz)] at hs'
          simp only [OrderRec.fill] at hs'
          simp only [if_pos hz, hs']
        · rw [if_neg (show ¬ (r.fill x).openAmt = 0 from hz)] at hs'
          simp only [OrderRec.fill] at hs'
          simp only [if_neg hz, hs']
      refine ⟨_, e, apply_step hA e, ?_, fun d hd => ?_, ?_, ?_⟩
      · intro d
        have hf := hflow _ e d
        have hs := h.slack d
        simp only [poolPayment, hk] at hf
        rw [queue_effect, if_pos hm'] at hf
        simp only [flow, hk, transferEffect, reduceCtorEq, if_false, if_true, q2] at hf
        have ham : amountOf [⟨pair.demandDenom x.dir, x.received⟩] d = if d = pair.demandDenom x.dir then x.received else 0 := by
          simp [amountOf, eq_comm (a := d)]
        rw [ham] at hf
        have : 0 ≤ (if d = pair.offerDenom x.dir then x.paid else 0) := by
          split
          · exact hpaid.1
          · exact le_refl _
        simp only
        linarith
      · obtain ⟨y, hy, hr⟩ := h.dirs d hd; exact ⟨y, by simp [hy], hr⟩
      · exact queue_coins_nonneg h.coins (by intro c hc; rw [List.mem_singleton.1 hc]; exact hpaid.2)
      · intro t ht
        rcases mem_queue ht with h1 | h1
        · rw [h1.2]; simp
        · exact h.dst t h1
    | pool id =>
      have hpaid := ha.paid x hmem
      have hcoins : ∀ t ∈ st.op.queue (.pairEscrow pair.id) (.poolReserve id) [⟨pair.demandDenom x.dir, x.received⟩], ∀ c ∈ t.amt, 0 ≤ c.amt :=
        queue_coins_nonneg h.coins (by intro c hc; rw [List.mem_singleton.1 hc]; exact hpaid.2)
      have hdst : ∀ t ∈ st.op.queue (.pairEscrow pair.id) (.poolReserve id) [⟨pair.demandDenom x.dir, x.received⟩], t.dst ≠ .pairEscrow pair.id := by
        intro t ht
        rcases mem_queue ht with h1 | h1
        · rw [h1.2]; simp
        · exact h.dst t h1
      cases hfd : st.dirs.find? (fun d => d.1 == id) with
      | none =>
        have e : applyOrder pair x st = some { st with op := st.op.queue (.pairEscrow pair.id) (.poolReserve id) [⟨pair.demandDenom x.dir, x.received⟩], dirs := st.dirs ++ [(id, x.dir)] } := by
          unfold applyOrder
          rw [if_neg hm]
          simp only [hk, hfd]
        refine ⟨_, e, apply_step hA e, h.slack, ?_, hcoins, hdst⟩
        intro d hd
        rcases List.mem_append.1 hd with hd | hd
        · obtain ⟨y, hy, hr⟩ := h.dirs d hd; exact ⟨y, by simp [hy], hr⟩
        · rw [List.mem_singleton.1 hd]; exact ⟨x, by simp, hm', hk, rfl⟩
      | some e0 =>
        have h1 := List.mem_of_find?_eq_some hfd
        have h2 : e0.1 = id := by simpa using List.find?_some hfd
        obtain ⟨y, hy, y1, y2, y3⟩ := h.dirs e0 h1
        have hdir : e0.2 = x.dir := by
          rw [y3]
          exact ha.sides y (by simp [hy]) x hmem y1 hm' id (by rw [y2, h2]) hk
        have e : applyOrder pair x st = some { st with op := st.op.queue (.pairEscrow pair.id) (.poolReserve id) [⟨pair.demandDenom x.dir, x.received⟩] } := by
          unfold applyOrder
          rw [if_neg hm]
          simp only [hk, hfd, hdir]
          rw [if_neg (by simp)]
        exact ⟨_, e, apply_step hA e, h.slack, fun d hd => by
          obtain ⟨y, hy, hr⟩ := h.dirs d hd; exact ⟨y, by simp [hy], hr⟩, hcoins, hdst⟩

theorem apply_total_all {pair : Pair} {s0 : State} (hp : s0.getPair pair.id = some pair) : ∀ (xs ys : List Order) (st : ApplyState),
    Applicable pair s0 (ys ++ xs) → ApplyTotal pair s0 ys xs st →
    ∃ st', forEach (applyOrder pair) xs st = some st' ∧ ApplyTotal pair s0 (ys ++ xs) [] st' := by
  intro xs
  induction xs with
  | nil => intro ys st _ h; exact ⟨st, rfl, by simpa using h⟩
  | cons x xs ih =>
    intro ys st ha h
    obtain ⟨st1, e1, h1⟩ := apply_total_step hp ha h
    obtain ⟨st2, e2, h2⟩ := ih (ys ++ [x]) st1 (by simpa using ha) h1
    exact ⟨st2, by simp only [forEach, e1, Option.bind_some]; exact e2, by simpa using h2⟩

/-- Applying the results succeeds: the pools can pay, every record can pay, no pool trades on both sides, and what the orders give
to the escrow account is what they take from it plus the difference in quote coin. -/
theorem apply_total (hw : WF s) {pair : Pair} (hp : s.getPair pair.id = some pair) {os : List Order} {diff : Int}
    (hu : ∀ x ∈ os, ∀ oid b, x.kind = .user oid b → ∃ r ∈ s.orders, r.pairId = pair.id ∧ r.id = oid ∧ r.done = false)
    (hd : os.Pairwise (fun a b => userId a ≠ none → userId a ≠ userId b))
    (hf : ∀ o ∈ s.orders, o.pairId = pair.id → o.status ≠ .notExecuted)
    (hA : Applicable pair s os) (hdust : s.params.dustCollector ≠ .pairEscrow pair.id) (hdiff : 0 ≤ diff)
    (hslack : ∀ d, 0 ≤ escrowSlack s pair.id d)
    (hflow : ∀ d, total (fun y => if y.isMatched then flow pair y (.pairEscrow pair.id) d else 0) os = if d = pair.quote then diff else 0)
    (hpay : ∃ b, BulkOp.run (queuePoolPayments pair os []) s.bank = some b) : ∃ s', applyMatchResult pair os diff s = some s' := by
  obtain ⟨b, hb⟩ := hpay
  obtain ⟨ra, wa⟩ := setOrder_bank_reach hw (bankStep_run hb) (keeps_run hb (by
    intro t ht e
    obtain ⟨id, hid⟩ := queuePool_src (os := os) (op := []) (by simp) t ht
    rw [e] at hid; cases hid))
  have hbal := fun d => (run_some hb).2.1 (.pairEscrow pair.id) d
  have hA0 : Applying pair.id { s with bank := b } [] os ⟨{ s with bank := b }, [], []⟩ :=
    ⟨wa, Relation.ReflTransGen.refl, hu, hd, hf, by simp, SameFrame.refl _, fun o ho _ => ho,
      fun o ho => ⟨o, ho, SameOrder.refl o, id, fun e => absurd rfl e, fun e1 e2 => by rw [e1] at e2; cases e2⟩,
      fun o ho => Or.inl ho⟩
  have hpp : ∀ d, 0 ≤ total (fun y => poolPayment pair y (.pairEscrow pair.id) d) os := fun d => total_nonneg' (fun x hx => by
    unfold poolPayment
    split
    · exact le_refl _
    · split
      · have := (hA.paid x hx).1
        simp only [transferEffect, reduceCtorEq, if_false, if_true, amountOf, List.map_cons, List.map_nil, List.sum_cons, List.sum_nil]
        split <;> omega
      · exact le_refl _)
  obtain ⟨st, e, hT⟩ := apply_total_all (pair := pair) (s0 := { s with bank := b }) hp os [] ⟨{ s with bank := b }, [], []⟩
    (show Applicable pair { s with bank := b } os from ⟨hA.paid, hA.records, hA.sides⟩) ⟨hA0, by
      intro d
      rw [ledger_bank, hbal, queuePool_effect, ledger_escrow]
      have h1 := hslack d
      have h2 := hpp d
      have h3 : totalEffect [] (.pairEscrow pair.id) d = 0 := rfl
      omega, by simp, by simp, by simp⟩
  have hrun : ∃ b2, BulkOp.run (st.op.queue (.pairEscrow pair.id) s.params.dustCollector [⟨pair.quote, diff⟩]) st.s.bank = some b2 := by
    rw [run_eq_sendAll]
    apply sendAll_isSome
    · exact queue_coins_nonneg hT.coins (by intro c hc; rw [List.mem_singleton.1 hc]; exact hdiff)
    · rintro a d ⟨t, ht, rfl⟩
      have hsrc : t.src = .pairEscrow pair.id := by
        rcases mem_queue ht with h1 | h1
        · exact h1.1
        · exact hT.applying.src t h1
      rw [hsrc, queue_outflow, if_pos rfl]
      have h1 := apply_flow_all (.pairEscrow pair.id) d os [] _ st hA0 (fun x hx oid b hk r hr e1 e2 =>
        ⟨(hA.records x hx oid b hk r hr e1 e2).1, (hA.records x hx oid b hk r hr e1 e2).2.1⟩) e
      simp only at h1
      rw [ledger_bank (s := s) b, hbal, queuePool_effect, ledger_escrow s, hflow d] at h1
      have h0 : totalEffect [] (.pairEscrow pair.id) d = 0 := rfl
      have h2 := totalEffect_src hT.dst d
      have h3 := hslack d
      have h4 : ledger st.s (.pairEscrow pair.id) d ≤ st.s.bank.bal (.pairEscrow pair.id) d := by
        rw [ledger_escrow]
        unfold escrowSlack
        have : 0 ≤ total (fun o : OrderRec => if o.pairId = pair.id ∧ o.offerDenom = d ∧ Unfinished o then o.remaining else 0) st.s.orders :=
          total_nonneg' (fun y hy => by
            show (0 : Int) ≤ if _ then _ else _
            split
            · exact (hT.applying.wf.ordsOk y hy).1
            · exact le_refl _)
        omega
      have h5 : amountOf [⟨pair.quote, diff⟩] d = if d = pair.quote then diff else 0 := by
        simp [amountOf, eq_comm (a := d)]
      rw [h5]
      omega
  obtain ⟨b2, hb2⟩ := hrun
  refine ⟨{ st.s with bank := b2 }, ?_⟩
  unfold applyMatchResult
  rw [hb]
  simp only
  rw [e]
  simp only
  rw [hb2]

end Verif.Dex

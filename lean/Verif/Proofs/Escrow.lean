import Verif.Proofs.Trading
import Verif.Proofs.LedgerSteps
import Verif.Proofs.Evolve
import Verif.Proofs.Effects
/-! # The escrow accounts of pairs -/
namespace Verif.Dex
open Verif Verif.Amm Verif.Spec

variable {s s' : State}

theorem total_congr' {α : Type} {f g : α → Int} {l : List α} (h : ∀ x ∈ l, f x = g x) : total f l = total g l := by
  unfold total; rw [List.map_congr_left h]

theorem total_sub' {α : Type} (f g : α → Int) (l : List α) : total (fun x => f x - g x) l = total f l - total g l := by
  unfold total
  induction l with
  | nil => rfl
  | cons a l ih => simp only [List.map_cons, List.sum_cons, ih]; ring

theorem total_const_zero {α : Type} (l : List α) : total (fun _ => (0 : Int)) l = 0 := by
  unfold total; simp

/-- Signed base flow of a matched order. -/
def baseFlow (o : Order) : Int := match o.dir with | .buy => o.amount - o.openAmt | .sell => -(o.amount - o.openAmt)

theorem book_flow {sqrt : Int → Int} {os : List Order} {pools : List (Nat × Pool)} {out : MatchOut} (B : MatchedBook sqrt os pools out) (pair : Pair)
    (hne : pair.base ≠ pair.quote) (hf : ∀ x ∈ os, x.openAmt = x.amount ∧ x.paid = 0 ∧ x.received = 0) (d : Denom) :
    total (fun y => if y.isMatched then flow pair y (.pairEscrow pair.id) d else 0) out.orders =
      (if d = pair.quote then out.diff else 0) - (if d = pair.base then baseImbalance out.orders else 0) := by
  obtain ⟨b1, b2, _⟩ := book_orders_nodup (heapOf (os ++ B.pos)) (List.nodup_range (n := (os ++ B.pos).length))
  have hfresh : ∀ i ∈ (bookOf (os ++ B.pos)).orders, (heapOf (os ++ B.pos) i).openAmt = (heapOf (os ++ B.pos) i).amount ∧
      (heapOf (os ++ B.pos) i).paid = 0 ∧ (heapOf (os ++ B.pos) i).received = 0 := by
    intro i hi
    have hlt := List.mem_range.1 (b2 i hi)
    by_cases hl : i < os.length
    · rw [heapOf_left hl]; exact hf _ (List.getElem_mem _)
    · obtain ⟨e, _, he⟩ := B.pool _ (heapOf_right (by omega) hlt)
      exact he.fresh.2
  have acc : Accounted (bookOf (os ++ B.pos)).orders _ _ := accounted_steps b1 B.steps
  have point : ∀ i ∈ (bookOf (os ++ B.pos)).orders, (fun y : Order => if y.isMatched then flow pair y (.pairEscrow pair.id) d else 0) (B.st.heap i) =
      (fun y => (if d = pair.quote then quoteFlow y else 0) - (if d = pair.base then baseFlow y else 0)) (B.st.heap i) := by
    intro i hi
    simp only
    obtain ⟨f1, f2, f3⟩ := hfresh i hi
    have s1 := B.fair.static i
    have h1 := B.fair.opened i
    have h2 := B.fair.paid i
    have h3 := B.fair.received i
    have hpos : ∀ f ∈ fillsOf B.st.log i, 0 < f.amt ∧ 0 < f.price := by
      intro f hm
      unfold fillsOf at hm
      exact B.fair.fill_pos f (List.mem_filter.1 hm).1
    have hbuy := acc.buy i
    have hsell := acc.sell i
    simp only at hbuy hsell
    rw [f1, f3] at hbuy
    rw [f1, f2] at hsell
    rw [s1.1.symm] at hbuy hsell
    rw [f1] at h1
    cases hm : (B.st.heap i).isMatched with
    | true =>
      simp only [if_true]
      have hk : ∀ y : Order, flow pair y (.pairEscrow pair.id) d =
          (if d = pair.offerDenom y.dir then y.paid else 0) - (if d = pair.demandDenom y.dir then y.received else 0) := by
        intro y
        unfold flow
        rw [if_pos rfl]
        cases y.kind <;> simp
      rw [hk]
      unfold quoteFlow baseFlow Pair.offerDenom Pair.demandDenom
      rw [s1.2.2.1]
      cases hd : (B.st.heap i).dir with
      | buy =>
        have := hbuy hd
        simp only
        split_ifs <;> omega
      | sell =>
        have := hsell hd
        simp only
        split_ifs <;> omega
    | false =>
      have hle : (B.st.heap i).amount ≤ (B.st.heap i).openAmt := by
        unfold Order.isMatched at hm
        simpa using hm
      rw [s1.2.2.1] at hle
      have hnil : fillsOf B.st.log i = [] := by
        cases hl : fillsOf B.st.log i with
        | nil => rfl
        | cons f fs =>
          rw [hl] at h1 hpos
          have hp := hpos f (by simp)
          have hs : 0 ≤ (fs.map (·.amt)).sum := by
            apply List.sum_nonneg
            intro x hx
            obtain ⟨c, hc, rfl⟩ := List.mem_map.1 hx
            exact le_of_lt (hpos c (by simp [hc])).1
          simp only [List.map_cons, List.sum_cons] at h1
          omega
      rw [hnil] at h1 h2 h3
      simp only [List.map_nil, List.sum_nil] at h1 h2 h3
      unfold quoteFlow baseFlow
      rw [s1.2.2.1]
      have e1 : (B.st.heap i).paid = 0 := by omega
      have e2 : (B.st.heap i).received = 0 := by omega
      have e3 : (B.st.heap i).openAmt = (heapOf (os ++ B.pos) i).amount := by omega
      rw [e1, e2, e3]
      cases (B.st.heap i).dir <;> simp
  have hq : total quoteFlow out.orders = out.diff := by
    rw [B.orders, total_map', B.diff]
    have := acc.quote
    have hz : ((bookOf (os ++ B.pos)).orders.map (fun p => quoteFlow (heapOf (os ++ B.pos) p))).sum = 0 := by
      apply List.sum_eq_zero
      intro x hx
      obtain ⟨i, hi, rfl⟩ := List.mem_map.1 hx
      obtain ⟨f1, f2, f3⟩ := hfresh i hi
      unfold quoteFlow
      cases (heapOf (os ++ B.pos) i).dir <;> simp [f2, f3]
    simp only at this
    rw [hz] at this
    unfold total
    omega
  have hb : total baseFlow out.orders = baseImbalance out.orders := rfl
  have : total (fun y => if y.isMatched then flow pair y (.pairEscrow pair.id) d else 0) out.orders =
      total (fun y => (if d = pair.quote then quoteFlow y else 0) - (if d = pair.base then baseFlow y else 0)) out.orders := by
    rw [B.orders, total_map', total_map']
    exact total_congr' point
  rw [this, total_sub']
  by_cases e1 : d = pair.quote
  · rw [if_pos e1, if_neg (fun e => hne (by rw [← e, e1]))]
    simp only [if_pos e1, if_neg (show ¬ d = pair.base from fun e => hne (by rw [← e, e1]))]
    rw [total_const_zero, ← hq]
  · simp only [if_neg e1, total_const_zero]
    by_cases e2 : d = pair.base
    · simp only [if_pos e2]
      rw [← hb]
    · simp only [if_neg e2, total_const_zero]

theorem ledger_escrow (s : State) (pid : Nat) (d : Denom) : ledger s (.pairEscrow pid) d = escrowSlack s pid d := by
  unfold ledger escrowSlack
  rw [total_zero (f := depositPart (.pairEscrow pid) d) (fun r _ => by simp [depositPart]),
    total_zero (f := withdrawPart (.pairEscrow pid) d) (fun r _ => by simp [withdrawPart])]
  have : total (orderPart (.pairEscrow pid) d) s.orders = total (fun o => (fun _ => (0 : Int)) o - (fun o : OrderRec => if o.pairId = pid ∧ o.offerDenom = d ∧ Unfinished o then o.remaining else 0) o) s.orders := by
    apply total_congr'
    intro o _
    unfold orderPart
    simp only [reduceCtorEq, false_and, if_false, Addr.pairEscrow.injEq]
    by_cases h1 : o.pairId = pid
    · by_cases h2 : o.offerDenom = d
      · by_cases h3 : Unfinished o <;> simp [h1, h2, h3]
      · simp [h1, h2, eq_comm (a := d)]
    · simp [h1, eq_comm (a := pid)]
  rw [this, total_sub', total_const_zero]
  ring

/-- What one matching does to the escrow accounts. -/
theorem matching_escrow (hw : WF s) {env : Env} {pair : Pair} (hp : pair ∈ s.pairs) (hpr : SaneParams s.params)
    (ho : ∀ o ∈ s.orders, o.pairId = pair.id → Explained o) (hl : ∀ lp, pair.lastPrice = some lp → 0 < lp)
    (hpp : ∀ pool ∈ s.pools, pool.pairId = pair.id → ∀ ap pp,
      ammPool env pool (s.bank.bal (.poolReserve pool.id) pair.quote) (s.bank.bal (.poolReserve pool.id) pair.base)
        (s.bank.supply (.pool pool.id)) = some ap → ap.price = some pp → 0 ≤ pp)
    (h : executeMatching env pair s = some s') :
    (∀ pid, pid ≠ pair.id → s'.shortfall pid = s.shortfall pid ∧ ∀ d, escrowSlack s pid d ≤ escrowSlack s' pid d) ∧
    (∀ d, escrowSlack s pair.id d + (if d = pair.base then s.shortfall pair.id else 0) ≤
      escrowSlack s' pair.id d + (if d = pair.base then s'.shortfall pair.id else 0)) := by
  obtain ⟨pools, h1, _, _, hc⟩ := (executeMatching_flow hw hp h).cases
  rcases hc with ⟨_, h2, h3, _⟩ | ⟨out, hout, h2, h3, _⟩
  · refine ⟨fun pid _ => ⟨by rw [h3], fun d => ?_⟩, fun d => ?_⟩
    · rw [← ledger_escrow, ← ledger_escrow, h2]
    · rw [← ledger_escrow, ← ledger_escrow, h2, h3]
  · have hlive : ∀ x ∈ (bookOrders s pair.id).map newUserOrder, Live x := by
      intro x hx
      obtain ⟨o, hm, rfl⟩ := List.mem_map.1 hx
      unfold bookOrders State.ordersOf at hm
      have := List.mem_filter.1 (List.mem_filter.1 hm).1
      exact newUser_live (ho o this.1 (by simpa using this.2))
    obtain ⟨B⟩ := keeperMatch_fair hpr hlive hl (by
      intro e he pp hpe
      obtain ⟨pool, p1, p2, _, _, p5, _⟩ := h1 e he
      exact hpp pool p1 p2 _ _ p5 hpe) hout
    have hfl := book_flow B pair (hw.pairNe pair hp).1 (by
      intro x hx
      obtain ⟨o, _, rfl⟩ := List.mem_map.1 hx
      exact ⟨rfl, rfl, rfl⟩)
    have hdiff := B.diff_nonneg
    have hpay : ∀ (pid : Nat) (d : Denom), pid ≠ pair.id → 0 ≤ transferEffect ⟨.pairEscrow pair.id, s.params.dustCollector, [⟨pair.quote, out.diff⟩]⟩ (.pairEscrow pid) d := by
      intro pid d hpid
      unfold transferEffect
      simp only [amountOf_single]
      rw [if_neg (show ¬ Addr.pairEscrow pid = .pairEscrow pair.id by simpa using hpid)]
      split_ifs <;> omega
    refine ⟨fun pid hpid => ⟨?_, fun d => ?_⟩, fun d => ?_⟩
    · rw [h3]; simp [hpid]
    · rw [← ledger_escrow, ← ledger_escrow, h2, total_zero]
      · have := hpay pid d hpid
        omega
      · intro y _
        have : flow pair y (.pairEscrow pid) d = 0 := by
          unfold flow
          rw [if_neg (show ¬ Addr.pairEscrow pid = .pairEscrow pair.id by simpa using hpid)]
          cases y.kind <;> simp
        rw [this]; simp
    · rw [← ledger_escrow, ← ledger_escrow, h2, hfl, h3]
      simp only [if_true]
      have : -(if d = pair.quote then out.diff else 0) ≤ transferEffect ⟨.pairEscrow pair.id, s.params.dustCollector, [⟨pair.quote, out.diff⟩]⟩ (.pairEscrow pair.id) d := by
        unfold transferEffect
        simp only [amountOf_single, if_true, eq_comm (a := pair.quote)]
        split_ifs <;> omega
      split_ifs at this ⊢ <;> omega

/-- Messages, transfers, parameter changes and the beginning of a block leave the ghost counter alone. -/
theorem step_shortfall (hw : WF s) {env : Env} {op : Op} (h2 : op ≠ .endBlock) (h : step env op s = some s') : s'.shortfall = s.shortfall := by
  have htx : ∀ (valid : Bool) (handler : State → Option State), some (tx valid handler s) = some s' →
      (∀ t, handler s = some t → t.shortfall = s.shortfall) → s'.shortfall = s.shortfall := by
    intro valid handler e hh
    cases e
    rcases tx_cases (valid := valid) (handler := handler) (s := s) with e | ⟨_, e⟩
    · rw [e]
    · exact hh _ e
  have hplace : ∀ {typ orderer pairId dir offer demand price amount lifespan} {t : State},
      placeOrder typ orderer pairId dir offer demand price amount lifespan s = some t → t.shortfall = s.shortfall := by
    intro _ _ _ _ _ _ _ _ _ t e
    obtain ⟨pair, rprice, b, _, _, _, _, _, _, _, _, _, _, rfl⟩ := placeOrder_some e
    rfl
  have hcancel : ∀ op, (∃ m, op = Op.cancelOrder m) ∨ (∃ m, op = Op.cancelAllOrders m) → Effect env s s' op → s'.shortfall = s.shortfall := by
    intro op hop he
    cases he with
    | same _ h => rw [h]
    | cancel _ _ hf => exact hf.shortfall
    | order _ hop' => rcases hop' with ⟨_, rfl⟩ | ⟨_, rfl⟩ | ⟨_, rfl⟩ <;> rcases hop with ⟨_, e⟩ | ⟨_, e⟩ <;> cases e
    | _ => rcases hop with ⟨_, e⟩ | ⟨_, e⟩ <;> cases e
  cases op with
  | createPair m =>
    refine htx _ _ h (fun t e => ?_)
    unfold createPair at e
    split at e
    · cases e
    · split at e
      · cases e
      · cases e; rfl
  | createPool m =>
    refine htx _ _ h (fun t e => ?_)
    unfold createPool at e
    split at e
    · cases e
    · split at e
      · cases e
      · simp only at e
        split at e
        · cases e
        · cases e; rfl
  | createRangedPool m =>
    refine htx _ _ h (fun t e => ?_)
    unfold createRangedPoolMsg at e
    split at e
    · cases e
    · split at e
      · cases e
      · cases e
      · split at e
        · cases e
        · simp only at e
          split at e
          · cases e
          · cases e; rfl
  | deposit m =>
    refine htx _ _ h (fun t e => ?_)
    unfold depositMsg at e
    simp only at e
    split at e
    · cases e
    · skip
      split at e
      · cases e
      · skip
        split at e
        · cases e
        · skip
          split at e
          · cases e
          · skip
            split at e
            · cases e
            · skip
              split at e
              · cases e
              · skip
                split at e
                · cases e
                · skip
                  split at e
                  · cases e
                  · cases e; rfl
  | withdraw m =>
    refine htx _ _ h (fun t e => ?_)
    unfold withdrawMsg at e
    simp only at e
    split at e
    · cases e
    · skip
      split at e
      · cases e
      · skip
        split at e
        · cases e
        · skip
          split at e
          · cases e
          · cases e; rfl
  | limitOrder m => exact htx _ _ h (fun t e => hplace e)
  | marketOrder m => exact htx _ _ h (fun t e => hplace e)
  | mmOrder m =>
    refine htx _ _ h (fun t e => ?_)
    unfold mmOrder at e
    simp only at e
    split at e
    · cases e
    · rw [Option.map_eq_some_iff] at e
      obtain ⟨t, ht, rfl⟩ := e
      show t.shortfall = _
      exact hplace ht
  | cancelOrder m => exact hcancel _ (Or.inl ⟨m, rfl⟩) (step_effect hw (fun a b e => by cases e) h2 h)
  | cancelAllOrders m => exact hcancel _ (Or.inr ⟨m, rfl⟩) (step_effect hw (fun a b e => by cases e) h2 h)
  | transfer src dst cs =>
    refine htx _ _ h (fun t e => ?_)
    rw [Option.map_eq_some_iff] at e
    obtain ⟨b, hb, rfl⟩ := e
    rfl
  | setParams p =>
    refine htx _ _ h (fun t e => ?_)
    cases e; rfl
  | beginBlock a b => cases h; rfl
  | endBlock => exact absurd rfl h2

theorem gift_nonneg {u : Nat} {dst : Addr} {cs : Coins} (h : ∀ c ∈ cs, 0 ≤ c.amt) (pid : Nat) (d : Denom) :
    0 ≤ transferEffect ⟨.user u, dst, cs⟩ (.pairEscrow pid) d := by
  have := amountOf_nonneg h d
  unfold transferEffect
  simp only [reduceCtorEq, if_false]
  split_ifs <;> omega

/-- Outside of batches the escrow accounts lose nothing beyond what the orders explain. -/
theorem effect_escrow (hw : WF s) (hw' : WF s') (hv : s.params.validate = true) {env : Env} {op : Op} (h : Effect env s s' op) (pid : Nat) (d : Denom) :
    escrowSlack s pid d ≤ escrowSlack s' pid d := by
  have hfee : ∀ c ∈ s.params.poolCreationFee, 0 ≤ c.amt := by
    unfold Params.validate at hv
    simp only [Bool.and_eq_true, coinsValid, List.all_eq_true, decide_eq_true_eq] at hv
    intro c hc
    exact le_of_lt (hv.1.1.1.1.1.2.1 c hc)
  have hbank : ∀ {u dst cs b}, s.bank.send (.user u) dst cs = some b → s.bank.bal (.pairEscrow pid) d ≤ b.bal (.pairEscrow pid) d := by
    intro u dst cs b hb
    have := send_some hb
    rw [this.2.2.2]
    have := gift_nonneg (u := u) (dst := dst) this.1 pid d
    omega
  have hpool : ∀ {pr cr rg cs mt}, PoolCreated pr cr rg cs mt s s' → escrowSlack s pid d ≤ escrowSlack s' pid d := by
    intro pr cr rg cs mt h
    unfold escrowSlack
    rw [h.bank, h.rest.2.2.2.2.2.1]
    have := gift_nonneg (u := cr) (dst := s.params.feeCollector) hfee pid d
    have e0 : transferEffect ⟨.user cr, .poolReserve (s.lastPoolId + 1), cs⟩ (.pairEscrow pid) d = 0 := by
      simp [transferEffect]
    rw [e0, if_neg (by simp)]
    omega
  cases h with
  | same _ h => rw [h]
  | pair m b hb h =>
    have := hbank hb
    unfold escrowSlack
    rw [h]
    show s.bank.bal _ _ - _ ≤ b.bal _ _ - total _ s.orders
    omega
  | pool m pr cs mt h => exact hpool h
  | ranged m pr cs mt h => exact hpool h
  | deposit m p r h => rw [← ledger_escrow, ← ledger_escrow, deposit_ledger hw hw' h]
  | withdraw m p r h => rw [← ledger_escrow, ← ledger_escrow, withdraw_ledger hw hw' h]
  | order _ hop p o h hpos => rw [← ledger_escrow, ← ledger_escrow, placed_ledger hw hw' h]
  | cancel _ hop hf hs ho hl => rw [← ledger_escrow, ← ledger_escrow, hl]
  | transfer src dst cs b hb h =>
    have := hbank hb
    unfold escrowSlack
    rw [h]
    show s.bank.bal _ _ - _ ≤ b.bal _ _ - total _ s.orders
    omega
  | params p hv h => rw [h]; exact le_refl _

/-- The escrow accounts cover what the orders claim, up to the ghost counter of base coin that was sold short. -/
structure Escrowed (s : State) : Prop where
  pairs : ∀ p ∈ s.pairs, ∀ d, 0 ≤ escrowSlack s p.id d + (if d = p.base then s.shortfall p.id else 0)
  others : ∀ pid, (∀ p ∈ s.pairs, p.id ≠ pid) → s.shortfall pid = 0 ∧ ∀ d, 0 ≤ escrowSlack s pid d

theorem endBlock_escrow (hw : WF s) {env : Env} (hs : SaneState env s) (ho : ∀ o ∈ s.orders, Explained o)
    (hl : ∀ p ∈ s.pairs, ∀ lp, p.lastPrice = some lp → 0 < lp) (hE : Escrowed s) (h : endBlock env s = some s') : Escrowed s' := by
  unfold endBlock at h
  split at h
  · cases h
  · split at h
    · unfold executeRequests at h
      split at h
      · cases h
      · rename_i s1 h1
        have m1 := matching_all hw h1
        have T := (batch_trading_inv (fun t => (∀ p ∈ s.pairs, ∀ d, 0 ≤ escrowSlack t p.id d + (if d = p.base then t.shortfall p.id else 0)) ∧
            (∀ pid, (∀ p ∈ s.pairs, p.id ≠ pid) → t.shortfall pid = 0 ∧ ∀ d, 0 ≤ escrowSlack t pid d)) hw hs ho hl h1 (by
          rintro x t t' hB e ⟨r1, r2⟩
          obtain ⟨k1, k2⟩ := matching_escrow hB.wf hB.now hB.params hB.orders hB.price hB.pools e
          refine ⟨fun p hp d => ?_, fun pid hpid => ?_⟩
          · by_cases hpx : p.id = x.id
            · have : p = x := hw.key_pair hp hB.pair hpx
              subst this
              exact (r1 p hp d).trans (k2 d)
            · have := k1 p.id hpx
              rw [this.1]
              have := this.2 d
              have := r1 p hp d
              omega
          · have hpx : pid ≠ x.id := fun e2 => hpid x hB.pair e2.symm
            have := k1 pid hpx
            refine ⟨by rw [this.1]; exact (r2 pid hpid).1, fun d => ((r2 pid hpid).2 d).trans (this.2 d)⟩) ⟨hE.pairs, hE.others⟩).2
        split at h
        · cases h
        · rename_i s2 h2
          have m2 := expire_all m1.wf h2
          split at h
          · cases h
          · rename_i s3 h3
            have m3 := deposit_all m2.wf h3
            have m4 := withdraw_all m3.wf h
            have hled : ∀ pid d, escrowSlack s' pid d = escrowSlack s1 pid d := by
              intro pid d
              rw [← ledger_escrow, ← ledger_escrow, withdraw_all_ledger m3.wf h, deposit_all_ledger m2.wf h3, expire_ledger m1.wf h2]
            have hsf : s'.shortfall = s1.shortfall := by
              rw [m4.frame.shortfall, m3.frame.shortfall, m2.frame.shortfall]
            have hpr : s'.pairs = s1.pairs := by
              rw [m4.frame.pairs, m3.frame.pairs, m2.frame.pairs]
            have hback : ∀ p ∈ s1.pairs, ∃ q ∈ s.pairs, q.id = p.id ∧ q.base = p.base := by
              intro p hp
              have hk := m1.wf.pairIds p hp
              rw [m1.lastPairId] at hk
              obtain ⟨q, hq, e⟩ := hw.pairAll p.id hk.1 hk.2
              obtain ⟨lp, hq'⟩ := m1.doneP q hq (by simp)
              have : p = { q with lastPrice := lp, batchId := q.batchId + 1 } := m1.wf.key_pair hp hq' (by rw [← e])
              exact ⟨q, hq, e, by rw [this]⟩
            refine ⟨?_, ?_⟩
            · rw [hpr, hsf]
              intro p hp d
              obtain ⟨q, hq, e1, e2⟩ := hback p hp
              rw [hled, ← e1, ← e2]
              exact T.1 q hq d
            · rw [hpr, hsf]
              intro pid hpid
              have := T.2 pid (by
                intro q hq e
                obtain ⟨lp, hq'⟩ := m1.doneP q hq (by simp)
                exact hpid _ hq' e)
              refine ⟨this.1, fun d => ?_⟩
              rw [hled]; exact this.2 d
    · cases h; exact hE

/-- Outside of batches the slack of an escrow account does not fall. -/
theorem step_slack (hw : WF s) (hw' : WF s') (hv : s.params.validate = true) {env : Env} {op : Op} (h2 : op ≠ .endBlock)
    (e : step env op s = some s') : ∀ pid d, escrowSlack s pid d ≤ escrowSlack s' pid d := by
  intro pid d
  by_cases h1 : ∃ a b, op = .beginBlock a b
  · obtain ⟨a, b, rfl⟩ := h1
    cases e
    unfold escrowSlack
    show s.bank.bal _ _ - _ ≤ s.bank.bal _ _ - total _ (s.orders.filter _)
    have : total (fun o : OrderRec => if o.pairId = pid ∧ o.offerDenom = d ∧ Unfinished o then o.remaining else 0) (s.orders.filter (fun o => !o.status.shouldBeDeleted)) =
        total (fun o : OrderRec => if o.pairId = pid ∧ o.offerDenom = d ∧ Unfinished o then o.remaining else 0) s.orders := by
      unfold total
      induction s.orders with
      | nil => rfl
      | cons o l ihl =>
        by_cases hd : o.status.shouldBeDeleted = true
        · rw [List.filter_cons_of_neg (by simp [hd]), ihl, List.map_cons, List.sum_cons]
          have hu : ¬ Unfinished o := by
            unfold Unfinished
            cases hst : o.status <;> simp_all [OStatus.shouldBeDeleted, OStatus.isCanceledOrExpired]
          simp [hu]
        · rw [List.filter_cons_of_pos (by simp [hd]), List.map_cons, List.sum_cons, List.map_cons, List.sum_cons, ihl]
    omega
  · exact effect_escrow hw hw' hv (step_effect hw (by push Not at h1; exact h1) h2 e) pid d

theorem escrowed_of_chain {env : Env} (h : SaneChain env s) : Escrowed s := by
  induction h with
  | @genesis s h =>
    refine ⟨by rw [h.pairs]; simp, fun pid _ => ⟨h.shortfall pid, fun d => ?_⟩⟩
    unfold escrowSlack
    rw [h.orders]
    have := h.nonneg (.pairEscrow pid) d
    simp only [total, List.map_nil, List.sum_nil]
    omega
  | @step s s' hc op hs e ih =>
    have S := sane_of_chain hc
    have S' := sane_of_chain (hc.step op hs e)
    have hw := S.reach.wf
    have hw' := S'.reach.wf
    by_cases h2 : op = .endBlock
    · subst h2
      exact endBlock_escrow hw (hs rfl) S.orders S.prices ih e
    · have hsf := step_shortfall hw h2 e
      have hslack := step_slack hw hw' S.reach.validParams h2 e
      have hpairs : ∀ p' ∈ s'.pairs, (∃ p ∈ s.pairs, p.id = p'.id ∧ p.base = p'.base) ∨ ∀ p ∈ s.pairs, p.id ≠ p'.id := by
        intro p' hp'
        by_cases h1 : ∃ p ∈ s.pairs, p.id = p'.id
        · obtain ⟨p, hp, e1⟩ := h1
          obtain ⟨q, hq, f1, f2, _⟩ := (run_evolves hw (env := env) (ops := [op]) (s' := s') (by simp [Dex.run, e])).pairs p hp
          have : q = p' := hw'.key_pair hq hp' (f1.trans e1)
          subst this
          exact Or.inl ⟨p, hp, e1, f2.symm⟩
        · push Not at h1
          exact Or.inr h1
      refine ⟨?_, ?_⟩
      · intro p' hp' d
        rw [hsf]
        rcases hpairs p' hp' with ⟨p, hp, e1, e2⟩ | hn
        · have := ih.pairs p hp d
          have := hslack p.id d
          rw [← e1, ← e2]
          omega
        · have h0 := ih.others p'.id hn
          have := h0.2 d
          have := hslack p'.id d
          rw [h0.1]
          split_ifs <;> omega
      · intro pid hpid
        rw [hsf]
        have := ih.others pid (by
          intro p hp e1
          obtain ⟨q, hq, f1, _⟩ := (run_evolves hw (env := env) (ops := [op]) (s' := s') (by simp [Dex.run, e])).pairs p hp
          exact hpid q hq (f1.trans e1))
        exact ⟨this.1, fun d => (this.2 d).trans (hslack pid d)⟩

end Verif.Dex

import Verif.Proofs.FirstBatch
import Verif.Props.BatchUncross
import Verif.Props.Market
/-! # C76, C85: pairs before and at their first trade -/
namespace Verif.Props
open Verif Verif.Dex Verif.Spec

/-- **C85** As long as a pair has no last price, none of its orders has traded: every order is open in full, has its whole offer
left and has received nothing, whatever the history. -/
theorem C85_unpriced_never_traded {env : Env} {s : State} (hs : ReachableWith env (fun p => ∀ id, p.dustCollector ≠ .poolReserve id) s)
    {p : Pair} (hp : p ∈ s.pairs) (hn : p.lastPrice = none) {o : OrderRec} (ho : o ∈ s.orders) (hop : o.pairId = p.id) : NotTraded o :=
  untouched_reachable hs p hp hn o ho hop

/-- **C85** Seen from the order: if it has traded at all, its pair has a last price. -/
theorem C85_traded_has_price {env : Env} {s : State} (hs : ReachableWith env (fun p => ∀ id, p.dustCollector ≠ .poolReserve id) s)
    {o : OrderRec} (ho : o ∈ s.orders) (ht : o.openAmt ≠ o.amount ∨ o.remaining ≠ o.offer ∨ o.received ≠ 0) :
    ∃ p ∈ s.pairs, p.id = o.pairId ∧ p.lastPrice ≠ none := by
  have hr : Reachable env s := by
    obtain ⟨s0, ops, hg, _, _, h⟩ := hs
    exact ⟨s0, ops, hg, h⟩
  obtain ⟨_, _, p, hp, hid, _⟩ := hr.wf.ords o ho
  refine ⟨p, hp, hid, fun hn => ?_⟩
  obtain ⟨h1, h2, h3⟩ := C85_unpriced_never_traded hs hp hn ho hid.symm
  rcases ht with ht | ht | ht
  · exact ht h1
  · exact ht h2
  · exact ht h3

/-- **C85** With sane parameters and a fixed tick precision, the orders of a pair without a last price have supported ticks as prices,
and none is a market order. -/
theorem C85_unpriced_orders {env : Env} {prec : Nat} {s : State}
    (hs : ReachableWith env (fun p => (SaneParams p ∧ ∀ id, p.dustCollector ≠ .poolReserve id) ∧ p.tickPrec = prec) s)
    {p : Pair} (hp : p ∈ s.pairs) (hn : p.lastPrice = none) {o : OrderRec} (ho : o ∈ s.orders) (hop : o.pairId = p.id) :
    (IsTick prec o.price ∧ Amm.lowestTick prec ≤ o.price ∧ o.price ≤ Amm.highestTick prec) ∧ o.typ ≠ .market :=
  inRange_reachable hs p hp hn o ho hop

/-- **C85** The last price of a pair changes only at the end of a block. -/
theorem C85_price_changes_in_batches {env : Env} {s s' : State} (hs : Reachable env s) {op : Op} (hop : op ≠ .endBlock)
    (h : step env op s = some s') {p : Pair} (hp : p ∈ s.pairs) : ∃ p' ∈ s'.pairs, p'.id = p.id ∧ p'.lastPrice = p.lastPrice := by
  by_cases h1 : ∃ a b, op = .beginBlock a b
  · obtain ⟨a, b, rfl⟩ := h1
    cases h
    exact ⟨p, hp, rfl, rfl⟩
  · have hr : Reachable env s' := hs.run (ops := [op]) (by simp [Dex.run, h])
    obtain ⟨p', hp', e⟩ := (effect_pairs hs.wf hr.wf (step_effect hs.wf (by push Not at h1; exact h1) hop h)).1 p hp
    exact ⟨p', hp', by rw [e], by rw [e]⟩

/-- **C85** A pair that has a last price keeps having one. -/
theorem C85_price_stays {env : Env} : ∀ {ops : List Op} {s s' : State},
    ReachableWith env (fun p => ∀ id, p.dustCollector ≠ .poolReserve id) s →
    (∀ p, Op.setParams p ∈ ops → ∀ id, p.dustCollector ≠ .poolReserve id) → run env ops s = some s' →
    ∀ p ∈ s.pairs, p.lastPrice ≠ none → ∃ p' ∈ s'.pairs, p'.id = p.id ∧ p'.lastPrice ≠ none := by
  intro ops
  induction ops with
  | nil => intro s s' _ _ h p hp hl; cases h; exact ⟨p, hp, rfl, hl⟩
  | cons op ops ih =>
    intro s s' hs hops h p hp hl
    simp only [run, Option.bind_eq_some_iff] at h
    obtain ⟨t, h1, h2⟩ := h
    have hr : Reachable env s := by
      obtain ⟨s0, ops0, hg, _, _, h⟩ := hs
      exact ⟨s0, ops0, hg, h⟩
    have ht : ReachableWith env (fun p => ∀ id, p.dustCollector ≠ .poolReserve id) t := by
      obtain ⟨s0, ops0, hg, h0, hp0, h⟩ := hs
      refine ⟨s0, ops0 ++ [op], hg, h0, ?_, ?_⟩
      · intro q hq
        rcases List.mem_append.1 hq with hq | hq
        · exact hp0 q hq
        · exact hops q (by simp at hq; simp [hq])
      · rw [run_append, h]
        simp [Dex.run, h1]
    have key : ∃ q ∈ t.pairs, q.id = p.id ∧ q.lastPrice ≠ none := by
      by_cases hop : op = .endBlock
      · subst hop
        by_cases hb : s.height % s.params.batchSize = 0
        · have hd : ∀ id, s.params.dustCollector ≠ .poolReserve id := by
            obtain ⟨s0, ops0, hg, h0, hp0, h⟩ := hs
            exact params_run (P := fun p => ∀ id, p.dustCollector ≠ .poolReserve id) (genesis_wf hg) h0 hp0 h
          obtain ⟨s2, s3, hB, _, _, _, _, _, _, _, _, _, _, _, _, _, _, _, _, hdt, hwt⟩ :=
            C45_batch_spec hr ((C45_on_batch hr hb).symm.trans h1) hd
          obtain ⟨book, pools, out, B⟩ := hB p hp
          refine ⟨{ p with lastPrice := resultPrice p.lastPrice out, batchId := p.batchId + 1 }, by rw [batch_pairs hdt hwt]; exact B.pair, rfl, ?_⟩
          intro e
          exact hl (resultPrice_none e).1
        · have h' : endBlock env s = some t := h1
          unfold endBlock at h'
          split at h'
          · cases h'
          · cases h'; exact ⟨p, hp, rfl, hl⟩
      · obtain ⟨q, hq, e1, e2⟩ := C85_price_changes_in_batches hr hop h1 hp
        exact ⟨q, hq, e1, by rw [e2]; exact hl⟩
    obtain ⟨q, hq, e1, e2⟩ := key
    obtain ⟨p', hp', e3, e4⟩ := ih ht (fun p h => hops p (by simp [h])) h2 q hq e2
    exact ⟨p', hp', e3.trans e1, e4⟩

/-- **C76** The first batch: a pair has no last price and no active pool, and its sell orders are not below one.  After the
batch no unfinished buy order that can still pay for one unit is priced at or above an unfinished sell order. -/
theorem C76_first_batch {env : Env} (hsq : env.sqrt = Amm.approxSqrt) {prec : Nat} {s s' : State}
    (hs : ReachableWith env (fun p => (SaneParams p ∧ ∀ id, p.dustCollector ≠ .poolReserve id) ∧ p.tickPrec = prec) s)
    (hh : s.height % s.params.batchSize = 0) (h : step env .endBlock s = some s')
    {p : Pair} (hp : p ∈ s.pairs) (hn : p.lastPrice = none) (hpool : ∀ q ∈ s.pools, q.pairId = p.id → q.disabled = true)
    (hsell : ∀ o ∈ s.orders, o.pairId = p.id → o.dir = .sell → Unfinished o → 10 ^ 18 ≤ o.price)
    {b k : OrderRec} (hb : b ∈ s'.orders) (hbp : b.pairId = p.id) (hbd : b.dir = .buy) (hbu : Unfinished b)
    (hk : k ∈ s'.orders) (hkp : k.pairId = p.id) (hkd : k.dir = .sell) (hku : Unfinished k)
    (hpay : b.price ≤ b.remaining * 10 ^ 18) : b.price < k.price := by
  have hwith : ReachableWith env (fun p => SaneParams p ∧ ∀ id, p.dustCollector ≠ .poolReserve id) s := by
    obtain ⟨s0, ops, hg, h0, hops, h⟩ := hs
    exact ⟨s0, ops, hg, h0.1, fun p h => (hops p h).1, h⟩
  have hdust : ReachableWith env (fun p => ∀ id, p.dustCollector ≠ .poolReserve id) s := by
    obtain ⟨s0, ops, hg, h0, hops, h⟩ := hwith
    exact ⟨s0, ops, hg, h0.2, fun p h => (hops p h).2, h⟩
  have hprec : s.params.tickPrec = prec := by
    obtain ⟨s0, ops, hg, h0, hops, h⟩ := hs
    exact (params_run (P := fun p => (SaneParams p ∧ ∀ id, p.dustCollector ≠ .poolReserve id) ∧ p.tickPrec = prec) (genesis_wf hg) h0 hops h).2
  obtain ⟨hc, hss⟩ := C59_params_suffice hsq hwith
  have hsane := sane_of_chain hc
  have hex : executeRequests env s = some s' := (C45_on_batch hsane.reach hh).symm.trans h
  obtain ⟨s2, s3, hB, _, _, hback, _, _, hnd, hpr, _, _, _, _, _, _, _, _, _, hdt, hwt⟩ := C45_batch_spec hsane.reach hex hss.dust
  rw [batch_orders hdt hwt] at hb hk
  obtain ⟨book, pools, out, B⟩ := hB p hp
  obtain ⟨ob, hob, tb⟩ := hback b hb
  obtain ⟨ok, hok, tk⟩ := hback k hk
  have hbp' : ob.pairId = p.id := by rw [← hbp, tb]
  have hkp' : ok.pairId = p.id := by rw [← hkp, tk]
  have hbd' : ob.dir = .buy := by rw [← hbd, tb]
  have hkd' : ok.dir = .sell := by rw [← hkd, tk]
  have hbpr : b.price = ob.price := by rw [tb]
  have hkpr : k.price = ok.price := by rw [tk]
  have hnone : pools = [] := by
    cases hpl : pools with
    | nil => rfl
    | cons e l =>
      exfalso
      obtain ⟨q, q1, _, q3, q4, _⟩ := (B.poolsAre e.1 e.2).1 (by rw [hpl]; simp)
      rw [hpool q q1 q3] at q4
      cases q4
  have hres := B.result
  rw [hn, hnone] at hres
  -- every order in the book is as it was placed
  have hfresh : ∀ o ∈ book, NotTraded o := fun o hm =>
    C85_unpriced_never_traded hdust hp hn ((B.bookIs o).1 hm).1 ((B.bookIs o).1 hm).2.1
  have hpay0 : ∀ o ∈ book, o.dir = .buy → o.price * o.openAmt ≤ o.remaining * 10 ^ 18 := by
    intro o hm hd
    obtain ⟨f1, f2, _⟩ := hfresh o hm
    have := (hsane.orders o ((B.bookIs o).1 hm).1).offer
    unfold NeededOffer at this
    rw [hd] at this
    rw [f1, f2]
    exact this.1
  have hamt : ∀ o ∈ book, o.dir = .buy → (newUserOrder o).amount = o.openAmt := by
    intro o hm hd
    obtain ⟨b1, b2, b3⟩ := (B.ordersAre o hm).buy hd
    have := b3 o.openAmt (le_refl _) (hpay0 o hm hd)
    omega
  obtain ⟨H, log, F, f2, f3, f4⟩ := firstMatch_uncrossed hss.params (by
      intro x hx
      obtain ⟨o, hm, rfl⟩ := List.mem_map.1 hx
      exact newUser_live (hsane.orders o ((B.bookIs o).1 hm).1))
    (by
      intro x hx
      obtain ⟨o, hm, rfl⟩ := List.mem_map.1 hx
      have T := B.ordersAre o hm
      unfold Funded
      rw [T.terms.1, T.terms.2.1, T.terms.2.2.2, T.fresh.1, T.fresh.2.1]
      cases hd : o.dir with
      | buy =>
        rw [hamt o hm hd]
        show quoteUp o.price o.openAmt ≤ o.remaining - 0
        have := hpay0 o hm hd
        rw [sub_zero]
        unfold quoteUp
        omega
      | sell =>
        obtain ⟨g1, g2, _⟩ := hfresh o hm
        have := (hsane.orders o ((B.bookIs o).1 hm).1).offer
        unfold NeededOffer at this
        rw [hd] at this
        have := T.sell hd
        show (newUserOrder o).amount ≤ o.remaining - 0
        omega)
    (by
      intro x hx
      obtain ⟨o, hm, rfl⟩ := List.mem_map.1 hx
      rw [(B.ordersAre o hm).terms.2.1, hprec]
      exact (C85_unpriced_orders hs hp hn ((B.bookIs o).1 hm).1 ((B.bookIs o).1 hm).2.1).1)
    (by
      intro x hx hd
      obtain ⟨o, hm, rfl⟩ := List.mem_map.1 hx
      obtain ⟨j1, j2, j3, _⟩ := (B.bookIs o).1 hm
      exact hsell o j1 j2 hd j3) hres
  have hap : book.map newUserOrder ++ [] = book.map newUserOrder := List.append_nil _
  rw [← hap] at F f2 f3 f4
  obtain ⟨i, hi, ei, oi, ri, ni⟩ := survivor hsane.reach.wf B hnd (pos := []) (fun o ho => by cases ho) F f2 f3 hob hbp' hb tb hbu
  obtain ⟨j, hj, ej, oj, rj, nj⟩ := survivor hsane.reach.wf B hnd (pos := []) (fun o ho => by cases ho) F f2 f3 hok hkp' hk tk hku
  have hbi : heapOf (book.map newUserOrder ++ []) i = newUserOrder ob := by
    rw [heapOf_left (by simpa using hi), List.getElem_map, ei]
  have hbj : heapOf (book.map newUserOrder ++ []) j = newUserOrder ok := by
    rw [heapOf_left (by simpa using hj), List.getElem_map, ej]
  have hobm : ob ∈ book := by rw [← ei]; exact List.getElem_mem _
  have hokm : ok ∈ book := by rw [← ej]; exact List.getElem_mem _
  have bo := B.ordersAre ob hobm
  have ko := B.ordersAre ok hokm
  have si := F.static i
  have sj := F.static j
  rw [hbi] at si
  rw [hbj] at sj
  have key := f4 i j (by simpa using hi) (by simpa using hj) (by rw [hbi]; exact hbd') (by rw [hbj]; exact hkd')
  rw [hbi, hbj, bo.terms.2.1, ko.terms.2.1] at key
  rw [hbpr, hkpr]
  by_contra hcon
  have hko : Unfinished ok := ((B.bookIs ok).1 hokm).2.2.1
  have hk1 : 10 ^ 18 ≤ ok.price := hsell ok hok hkp' hkd' hko
  have ea := hamt ob hobm hbd'
  unfold TooSmall at ni nj
  push Not at ni nj
  refine hcon (key ?_ ?_)
  · refine buy_matchable (by rw [si.1]; exact hbd') (by unfold Dec.one; omega) (by omega) ?_
    rw [si.2.2.2.1, bo.terms.2.2.2]
    rw [hbpr] at hpay
    unfold Dec.one
    rw [← ri]; exact hpay
  · have := ko.sell hkd'
    have ek : (H j).openAmt = k.openAmt := by omega
    refine sell_matchable (by rw [sj.1]; exact hkd') (by omega) ?_
    rw [ek]
    unfold Dec.one
    omega

/-- A pair without a pool: a buy order at 1.02, sell orders at 1.00 and 1.05, and a buy order at 0.98. -/
def firstOrders : List Op :=
  [.createPair ⟨1, .native 0, .native 1⟩,
   .limitOrder ⟨2, 1, .buy, ⟨.native 1, 20400⟩, .native 0, 102 * 10 ^ 16, 20000, 100⟩,
   .limitOrder ⟨3, 1, .sell, ⟨.native 0, 10000⟩, .native 1, 10 ^ 18, 10000, 100⟩,
   .limitOrder ⟨3, 1, .sell, ⟨.native 0, 5000⟩, .native 1, 105 * 10 ^ 16, 5000, 100⟩,
   .limitOrder ⟨2, 1, .buy, ⟨.native 1, 4900⟩, .native 0, 98 * 10 ^ 16, 5000, 100⟩]

/-- The hypotheses of C85 and of `C76_first_batch` are met: before the batch the pair has no price, then the buy order at 1.02 is filled
in half, the sell order at 1.00 in full, and the pair has a price. -/
example : ∃ s s', ReachableWith Demo.env (fun p => (SaneParams p ∧ ∀ id, p.dustCollector ≠ .poolReserve id) ∧ p.tickPrec = 3) s ∧
    s.height % s.params.batchSize = 0 ∧ step Demo.env .endBlock s = some s' ∧ s.pairs.map (·.lastPrice) = [none] ∧ s.orders.length = 4 ∧
    (∀ q ∈ s.pools, q.disabled = true) ∧ (∀ o ∈ s.orders, o.dir = .sell → Unfinished o → 10 ^ 18 ≤ o.price) ∧
    (s'.orders.filter (fun o => decide (Unfinished o))).map (fun o => (o.id, o.dir, o.amount, o.openAmt)) =
      [(1, .buy, 20000, 10000), (3, .sell, 5000, 5000), (4, .buy, 5000, 5000)] ∧
    (∀ o ∈ s'.orders, Unfinished o → o.price ≤ o.remaining * 10 ^ 18) ∧ ∃ o ∈ s'.orders, o.openAmt ≠ o.amount := by
  have h : (run Demo.env firstOrders Demo.s0).any (fun s => (step Demo.env .endBlock s).any (fun s' =>
      decide (s.height % s.params.batchSize = 0) && decide (s.pairs.map (·.lastPrice) = [none]) && decide (s.orders.length = 4) &&
      decide (∀ q ∈ s.pools, q.disabled = true) &&
      decide (∀ o ∈ s.orders, o.dir = .sell → Unfinished o → 10 ^ 18 ≤ o.price) &&
      decide ((s'.orders.filter (fun o => decide (Unfinished o))).map (fun o => (o.id, o.dir, o.amount, o.openAmt)) =
        [(1, .buy, 20000, 10000), (3, .sell, 5000, 5000), (4, .buy, 5000, 5000)]) &&
      decide (∀ o ∈ s'.orders, Unfinished o → o.price ≤ o.remaining * 10 ^ 18) &&
      decide (∃ o ∈ s'.orders, o.openAmt ≠ o.amount))) = true := by decide +kernel
  rw [Option.any_eq_true] at h
  obtain ⟨s, h1, h2⟩ := h
  rw [Option.any_eq_true] at h2
  obtain ⟨s', h2, h3⟩ := h2
  simp only [Bool.and_eq_true, decide_eq_true_eq] at h3
  obtain ⟨⟨⟨⟨⟨⟨⟨a1, a2⟩, a3⟩, a4⟩, a5⟩, a6⟩, a7⟩, a8⟩ := h3
  refine ⟨s, s', ⟨Demo.s0, _, Demo.genesis, ⟨⟨⟨by decide +kernel, by decide +kernel⟩, fun id e => by cases e⟩, rfl⟩, ?_, h1⟩,
    a1, h2, a2, a3, a4, a5, a6, a7, a8⟩
  intro p hp
  simp [firstOrders] at hp

end Verif.Props

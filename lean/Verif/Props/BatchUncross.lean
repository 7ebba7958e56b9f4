import Verif.Proofs.BatchUncross
import Verif.Props.PairBatch
import Verif.Props.Ranges
import Verif.Props.Batch
import Verif.Proofs.Example
/-! # C76: no crossing orders are left in the book of a pair by a batch -/
namespace Verif.Props
open Verif Verif.Dex Verif.Spec


/-- C76: after a batch of a history with sane parameters, no unfinished buy order of a pair is priced at or above an unfinished sell
order of it, in a market above price one: the pair has a last price, its lower price limit and the sell orders are not below one.
The buyer had the money for its open amount when the batch began and can still pay for one unit at its limit price (an
order that has never traded always can, see the next theorem). -/
theorem C76_book_uncrossed {env : Env} (hsq : env.sqrt = Amm.approxSqrt) {s s' : State}
    (hs : ReachableWith env (fun p => SaneParams p ∧ ∀ id, p.dustCollector ≠ .poolReserve id) s)
    (hh : s.height % s.params.batchSize = 0) (h : step env .endBlock s = some s')
    {p : Pair} (hp : p ∈ s.pairs) {last : Int} (hl : p.lastPrice = some last)
    (hlow : 10 ^ 36 ≤ last * (10 ^ 18 - s.params.maxPriceLimitRatio))
    (hsell : ∀ o ∈ s.orders, o.pairId = p.id → o.dir = .sell → Unfinished o → 10 ^ 18 ≤ o.price)
    {b k : OrderRec} (hb : b ∈ s'.orders) (hbp : b.pairId = p.id) (hbd : b.dir = .buy) (hbu : Unfinished b)
    (hk : k ∈ s'.orders) (hkp : k.pairId = p.id) (hkd : k.dir = .sell) (hku : Unfinished k)
    (hfund : ∀ o ∈ s.orders, o.pairId = p.id → o.id = b.id → o.price * o.openAmt ≤ o.remaining * 10 ^ 18)
    (hpay : b.price ≤ b.remaining * 10 ^ 18) : b.price < k.price := by
  obtain ⟨hc, hss⟩ := C59_params_suffice hsq hs
  have hsane := sane_of_chain hc
  have hex : executeRequests env s = some s' := (C45_on_batch hsane.reach hh).symm.trans h
  obtain ⟨s2, s3, hB, _, _, hback, _, _, hnd, hpr, _, _, _, _, _, _, _, _, _, hdt, hwt⟩ := C45_batch_spec hsane.reach hex hss.dust
  rw [batch_orders hdt hwt] at hb hk
  obtain ⟨book, pools, out, B⟩ := hB p hp
  obtain ⟨ob, hob, tb⟩ := hback b hb
  obtain ⟨ok, hok, tk⟩ := hback k hk
  have hbp' : ob.pairId = p.id := by rw [← hbp, tb]
  have hkp' : ok.pairId = p.id := by rw [← hkp, tk]
  have hbd' : ob.dir = .buy := by rw [← hbd, tb]
  have hkd' : ok.dir = .sell := by rw [← hkd, tk]
  have hbpr : b.price = ob.price := by rw [tb]
  have hkpr : k.price = ok.price := by rw [tk]
  have hbid : b.id = ob.id := by rw [tb]
  have hr0 := hss.params.ratio
  have hlast0 : 0 < last := hsane.prices p hp last hl
  have hlast : Dec.one ≤ last := by
    have : last * (10 ^ 18 - s.params.maxPriceLimitRatio) ≤ last * 10 ^ 18 := Int.mul_le_mul_of_nonneg_left (by omega) (by omega)
    unfold Dec.one; omega
  have hres := B.result
  rw [hl] at hres
  obtain ⟨pos, H, log, f1, F, f2, f3, f4⟩ := keeperMatch_uncrossed hss.params (by
      intro x hx
      obtain ⟨o, hm, rfl⟩ := List.mem_map.1 hx
      exact newUser_live (hsane.orders o ((B.bookIs o).1 hm).1)) hlast
    (fun lo hi e => low_limit hlow e)
    (by
      intro x hx hd
      obtain ⟨o, hm, rfl⟩ := List.mem_map.1 hx
      obtain ⟨j1, j2, j3, _⟩ := (B.bookIs o).1 hm
      exact hsell o j1 j2 hd j3)
    (by
      intro e he pp hpe
      obtain ⟨q, q1, q2, q3, _, q5, _⟩ := (B.poolsAre e.1 e.2).1 he
      exact hss.prices q q1 p hp q3.symm _ _ (by rw [q2]; exact q5) hpe) hres
  obtain ⟨i, hi, ei, oi, ri, ni⟩ := survivor hsane.reach.wf B hnd f1 F f2 f3 hob hbp' hb tb hbu
  obtain ⟨j, hj, ej, oj, rj, nj⟩ := survivor hsane.reach.wf B hnd f1 F f2 f3 hok hkp' hk tk hku
  have hbi : heapOf (book.map newUserOrder ++ pos) i = newUserOrder ob := by
    rw [heapOf_left (by simpa using hi), List.getElem_map, ei]
  have hbj : heapOf (book.map newUserOrder ++ pos) j = newUserOrder ok := by
    rw [heapOf_left (by simpa using hj), List.getElem_map, ej]
  have bo := B.ordersAre ob (by rw [← ei]; exact List.getElem_mem _)
  have ko := B.ordersAre ok (by rw [← ej]; exact List.getElem_mem _)
  have si := F.static i
  have sj := F.static j
  rw [hbi] at si
  rw [hbj] at sj
  have key := f4 i j (by simpa using hi) (by simpa using hj) (by rw [hbi]; exact hbd') (by rw [hbj]; exact hkd')
  rw [hbi, hbj, bo.terms.2.1, ko.terms.2.1] at key
  rw [hbpr, hkpr]
  by_contra hcon
  have hko : Unfinished ok := ((B.bookIs ok).1 (by rw [← ej]; exact List.getElem_mem _)).2.2.1
  have hk1 : 10 ^ 18 ≤ ok.price := hsell ok hok hkp' hkd' hko
  have ea : (newUserOrder ob).amount = ob.openAmt := by
    obtain ⟨b1, b2, b3⟩ := bo.buy hbd'
    have := b3 ob.openAmt (le_refl _) (hfund ob hob hbp' hbid.symm)
    omega
  unfold TooSmall at ni nj
  push Not at ni nj
  refine hcon (key ?_ ?_)
  · refine buy_matchable (by rw [si.1]; exact hbd') (by unfold Dec.one; omega) (by omega) ?_
    rw [si.2.2.2.1, bo.terms.2.2.2]
    rw [hbpr] at hpay
    unfold Dec.one
    rw [← ri]; exact hpay
  · have := ko.sell hkd'
    have ek : (H j).openAmt = k.openAmt := by omega
    refine sell_matchable (by rw [sj.1]; exact hkd') (by omega) ?_
    rw [ek]
    unfold Dec.one
    omega


/-- C76: in particular a buy order that is open in full after the batch is priced below every unfinished sell order. -/
theorem C76_untraded_never_crossed {env : Env} (hsq : env.sqrt = Amm.approxSqrt) {s s' : State}
    (hs : ReachableWith env (fun p => SaneParams p ∧ ∀ id, p.dustCollector ≠ .poolReserve id) s)
    (hh : s.height % s.params.batchSize = 0) (h : step env .endBlock s = some s')
    {p : Pair} (hp : p ∈ s.pairs) {last : Int} (hl : p.lastPrice = some last)
    (hlow : 10 ^ 36 ≤ last * (10 ^ 18 - s.params.maxPriceLimitRatio))
    (hsell : ∀ o ∈ s.orders, o.pairId = p.id → o.dir = .sell → Unfinished o → 10 ^ 18 ≤ o.price)
    {b k : OrderRec} (hb : b ∈ s'.orders) (hbp : b.pairId = p.id) (hbd : b.dir = .buy) (hbu : Unfinished b) (hopen : b.openAmt = b.amount)
    (hk : k ∈ s'.orders) (hkp : k.pairId = p.id) (hkd : k.dir = .sell) (hku : Unfinished k) : b.price < k.price := by
  obtain ⟨hc, hss⟩ := C59_params_suffice hsq hs
  have hsane := sane_of_chain hc
  have hsane' := sane_of_chain (hc.step .endBlock (fun _ => hss) h)
  have hex : executeRequests env s = some s' := (C45_on_batch hsane.reach hh).symm.trans h
  have hf : ∀ o : OrderRec, Explained o → o.dir = .buy → o.openAmt = o.amount → o.price * o.openAmt ≤ o.remaining * 10 ^ 18 := by
    intro o he hd ho
    have := explained_untraded he ho
    rw [this, ho]
    have := he.offer
    unfold NeededOffer at this
    rw [hd] at this
    simp only at this
    omega
  refine C76_book_uncrossed hsq hs hh h hp hl hlow hsell hb hbp hbd hbu hk hkp hkd hku ?_ ?_
  · intro o ho hop hid
    obtain ⟨o2, ho2, hst, hcases⟩ := C45_orders_after_batch hsane.reach hex hss.dust b hb
    have : o2 = o := hsane.reach.wf.ordersS.inj ho2 ho (by
      unfold OrderRec.key; rw [hop, hid, ← hbp, hst])
    subst this
    have ha : o2.amount = b.amount := by rw [hst]
    have hd : o2.dir = .buy := by rw [← hbd, hst]
    have he := hsane.orders o2 ho
    refine hf o2 he hd ?_
    have hle := he.facts
    rcases hcases with ⟨_, rfl⟩ | ⟨_, hx⟩ | ⟨_, y, hy, _, hx⟩
    · exact hopen
    · rcases hx with ⟨_, rfl⟩ | ⟨_, rfl⟩ <;> exact hopen
    · exfalso
      have : b.openAmt = o2.openAmt - (y.amount - y.openAmt) := by
        rcases hx with ⟨_, rfl⟩ | ⟨_, _, rfl⟩ | ⟨_, _, rfl⟩ <;> rfl
      omega
  · have he := hsane'.orders b hb
    have h1 := hf b he hbd hopen
    have h2 := he.amount
    have h3 : b.price * 1 ≤ b.price * b.openAmt := Int.mul_le_mul_of_nonneg_left (by omega) (le_of_lt he.price)
    omega

/-- A market at price two: a pool, a trade that sets the last price, then a buy order at 2.05, sell orders at 2.0 and 2.1 and a buy
order at 1.95. -/
def aboveOne : List Op :=
  [.createPair ⟨1, .native 0, .native 1⟩, .createPool ⟨1, 1, [⟨.native 0, 1000000⟩, ⟨.native 1, 2000000⟩]⟩,
   .limitOrder ⟨2, 1, .buy, ⟨.native 1, 2000⟩, .native 0, 2 * 10 ^ 18, 1000, 100⟩,
   .limitOrder ⟨3, 1, .sell, ⟨.native 0, 1000⟩, .native 1, 2 * 10 ^ 18, 1000, 100⟩, .endBlock, .beginBlock 2 50,
   .limitOrder ⟨2, 1, .buy, ⟨.native 1, 102500⟩, .native 0, 205 * 10 ^ 16, 50000, 100⟩,
   .limitOrder ⟨3, 1, .sell, ⟨.native 0, 30000⟩, .native 1, 2 * 10 ^ 18, 30000, 100⟩,
   .limitOrder ⟨3, 1, .sell, ⟨.native 0, 5000⟩, .native 1, 21 * 10 ^ 17, 5000, 100⟩,
   .limitOrder ⟨2, 1, .buy, ⟨.native 1, 9750⟩, .native 0, 195 * 10 ^ 16, 5000, 100⟩]

/-- Both theorems apply there: the buy order at 2.05 is filled in part, the sell order at 2.1 and the buy order at 1.95 stay open in
full. -/
example : ∃ s s', ReachableWith Demo.env (fun p => SaneParams p ∧ ∀ id, p.dustCollector ≠ .poolReserve id) s ∧
    s.height % s.params.batchSize = 0 ∧ step Demo.env .endBlock s = some s' ∧
    s.pairs.map (·.lastPrice) = [some (2 * 10 ^ 18)] ∧ 10 ^ 36 ≤ (2 * 10 ^ 18) * (10 ^ 18 - s.params.maxPriceLimitRatio) ∧
    (∀ o ∈ s.orders, o.dir = .sell → Unfinished o → 10 ^ 18 ≤ o.price) ∧
    (∀ o ∈ s.orders, Unfinished o → o.dir = .buy → o.price * o.openAmt ≤ o.remaining * 10 ^ 18) ∧
    (s'.orders.filter (fun o => decide (Unfinished o))).map (fun o => (o.id, o.dir, o.amount, o.openAmt)) =
      [(3, .buy, 50000, 7246), (5, .sell, 5000, 5000), (6, .buy, 5000, 5000)] ∧
    ∀ o ∈ s'.orders, Unfinished o → o.price ≤ o.remaining * 10 ^ 18 := by
  have h : (run Demo.env aboveOne Demo.s0).any (fun s => (step Demo.env .endBlock s).any (fun s' =>
      decide (s.height % s.params.batchSize = 0) && decide (s.pairs.map (·.lastPrice) = [some (2 * 10 ^ 18)]) &&
      decide (10 ^ 36 ≤ (2 * 10 ^ 18) * (10 ^ 18 - s.params.maxPriceLimitRatio)) &&
      decide (∀ o ∈ s.orders, o.dir = .sell → Unfinished o → 10 ^ 18 ≤ o.price) &&
      decide (∀ o ∈ s.orders, Unfinished o → o.dir = .buy → o.price * o.openAmt ≤ o.remaining * 10 ^ 18) &&
      decide ((s'.orders.filter (fun o => decide (Unfinished o))).map (fun o => (o.id, o.dir, o.amount, o.openAmt)) =
        [(3, .buy, 50000, 7246), (5, .sell, 5000, 5000), (6, .buy, 5000, 5000)]) &&
      decide (∀ o ∈ s'.orders, Unfinished o → o.price ≤ o.remaining * 10 ^ 18))) = true := by decide +kernel
  rw [Option.any_eq_true] at h
  obtain ⟨s, h1, h2⟩ := h
  rw [Option.any_eq_true] at h2
  obtain ⟨s', h2, h3⟩ := h2
  simp only [Bool.and_eq_true, decide_eq_true_eq] at h3
  obtain ⟨⟨⟨⟨⟨⟨a1, a2⟩, a3⟩, a4⟩, a5⟩, a6⟩, a7⟩ := h3
  refine ⟨s, s', ⟨Demo.s0, _, Demo.genesis, ⟨⟨by decide +kernel, by decide +kernel⟩, fun id e => by cases e⟩, ?_, h1⟩, a1, h2, a2, a3, a4, a5, a6, a7⟩
  intro p hp
  simp [aboveOne] at hp

end Verif.Props

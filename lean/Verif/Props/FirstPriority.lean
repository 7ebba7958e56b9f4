import Verif.Props.First
import Verif.Proofs.FirstPriority
/-! # C25: price priority in the first trade of a pair -/
namespace Verif.Props
open Verif Verif.Dex Verif.Spec

/-- **C25** Price priority in the first trade of a pair, seen from the order records.  If an order of a pair without a last price trades at
the end of a block, then no sell order with a better price is left unfinished, and a buy order with a better price is left unfinished only
if all of it is worth less than one quote unit at the trade price. -/
theorem C25_first_trade {env : Env} (hsq : env.sqrt = Amm.approxSqrt) {s s' : State}
    (hs : ReachableWith env (fun p => SaneParams p ∧ ∀ id, p.dustCollector ≠ .poolReserve id) s)
    (hh : s.height % s.params.batchSize = 0) (h : step env .endBlock s = some s')
    {p : Pair} (hp : p ∈ s.pairs) (hn : p.lastPrice = none)
    {a b : OrderRec} (ha : a ∈ s'.orders) (hap : a.pairId = p.id) (hau : Unfinished a)
    (hb : b ∈ s'.orders) (hbp : b.pairId = p.id) (hbt : b.openAmt < b.amount)
    (hdir : a.dir = b.dir) (hbet : if b.dir = .buy then b.price < a.price else a.price < b.price) :
    a.dir = .buy ∧ ∃ p' ∈ s'.pairs, p'.id = p.id ∧ ∃ mp, p'.lastPrice = some mp ∧ mp * a.amount < 10 ^ 18 := by
  have hdust : ReachableWith env (fun p => ∀ id, p.dustCollector ≠ .poolReserve id) s := by
    obtain ⟨s0, ops, hg, h0, hops, h⟩ := hs
    exact ⟨s0, ops, hg, h0.2, fun p h => (hops p h).2, h⟩
  obtain ⟨hc, hss⟩ := C59_params_suffice hsq hs
  have hsane := sane_of_chain hc
  have hex : executeRequests env s = some s' := (C45_on_batch hsane.reach hh).symm.trans h
  obtain ⟨s2, s3, hB, _, _, hback, _, _, hnd, _, _, _, _, _, _, _, _, _, _, hdt, hwt⟩ := C45_batch_spec hsane.reach hex hss.dust
  rw [batch_orders hdt hwt] at ha hb
  obtain ⟨book, pools, out, B⟩ := hB p hp
  obtain ⟨oa, hoa, ta⟩ := hback a ha
  obtain ⟨ob, hob, tb⟩ := hback b hb
  have hap' : oa.pairId = p.id := by rw [← hap, ta]
  have hbp' : ob.pairId = p.id := by rw [← hbp, tb]
  have had : a.dir = oa.dir := by rw [ta]
  have hbd : b.dir = ob.dir := by rw [tb]
  have hapr : a.price = oa.price := by rw [ta]
  have hbpr : b.price = ob.price := by rw [tb]
  have hbam : b.amount = ob.amount := by rw [tb]
  have hbfresh := C85_unpriced_never_traded hdust hp hn hob hbp'
  have huniq : ∀ x ∈ s2.orders, x.pairId = ob.pairId → x.id = ob.id → b = x := by
    intro x hx h1 h2
    refine List.inj_on_of_nodup_map hnd hb hx ?_
    simp only [Prod.mk.injEq]
    unfold SameTerms at tb
    rw [tb, h1, h2]
    exact ⟨rfl, rfl⟩
  have hobu : Unfinished ob := by
    by_contra hc
    have e := huniq ob (B.finished ob hob hbp' hc) rfl rfl
    rw [e, hbfresh.1] at hbt
    exact lt_irrefl _ hbt
  -- the order traded, so the matching says so
  have htr : ∃ y ∈ resultOrders out, y.kind = .user ob.id ob.batchId ∧ y.openAmt < y.amount := by
    by_contra hc
    push Not at hc
    obtain ⟨x, hx, hax⟩ := B.otherOrders ob hob hbp' hobu (fun y hy hk => not_lt.2 (hc y hy hk))
    have e : b = x := by
      apply huniq x hx
      · rcases hax with ⟨_, rfl⟩ | ⟨_, rfl⟩ <;> rfl
      · rcases hax with ⟨_, rfl⟩ | ⟨_, rfl⟩ <;> rfl
    have e2 : x.openAmt = ob.openAmt := by rcases hax with ⟨_, rfl⟩ | ⟨_, rfl⟩ <;> rfl
    rw [hbam, e, e2, hbfresh.1] at hbt
    exact lt_irrefl _ hbt
  obtain ⟨y, hy, hk, hlt⟩ := htr
  obtain ⟨mo, rfl⟩ : ∃ mo, out = some mo := by
    cases out with
    | none => cases hy
    | some mo => exact ⟨mo, rfl⟩
  have hres := B.result
  rw [hn] at hres
  obtain ⟨pos, H, log, hpos, F, f2, f3, hmp, fpr, f4⟩ := firstMatch_priority hss.params (by
      intro x hx
      obtain ⟨o, hm, rfl⟩ := List.mem_map.1 hx
      exact newUser_live (hsane.orders o ((B.bookIs o).1 hm).1)) hres
  have hheap : ∀ i (hi : i < book.length), heapOf (book.map newUserOrder ++ pos) i = newUserOrder book[i] := by
    intro i hi
    rw [heapOf_left (by simpa using hi), List.getElem_map]
  -- the order that traded, and one of its fills
  obtain ⟨j, hj, rfl⟩ := f2 y hy
  have hjb : j < book.length := by
    by_contra hc
    have hm := heapOf_right (os := book.map newUserOrder) (pos := pos) (i := j) (by simpa using hc) hj
    obtain ⟨id, e⟩ := hpos _ hm
    rw [(F.static j).2.2.2.2, e] at hk
    cases hk
  have bj := B.ordersAre _ (List.getElem_mem hjb)
  have hbj : book[j] = ob := by
    have hk2 := hk
    rw [(F.static j).2.2.2.2, hheap j hjb] at hk2
    have e := bj.terms.2.2.1.symm.trans hk2
    obtain ⟨j1, j2, _⟩ := (B.bookIs _).1 (List.getElem_mem hjb)
    injection e with e1 e2
    exact hsane.reach.wf.ordersS.inj j1 hob (by unfold OrderRec.key; rw [j2, e1, hbp'])
  rw [hbj] at bj
  have hfill : ∃ f ∈ log, f.ptr = j := by
    by_contra hc
    push Not at hc
    have hz : fillsOf log j = [] := List.filter_eq_nil_iff.2 (fun f hf => by simpa using hc f hf)
    have ho := F.opened j
    rw [hz, hheap j hjb, hbj, bj.fresh.1] at ho
    rw [(F.static j).2.2.1, hheap j hjb, hbj] at hlt
    simp only [List.map_nil, List.sum_nil, sub_zero] at ho
    omega
  obtain ⟨f, hf, rfl⟩ := hfill
  have hlim := F.fill_limit f hf
  rw [fpr f hf, hheap _ hjb, hbj] at hlim
  -- the better order
  obtain ⟨i, hi, ei, oi, ri, ni⟩ := survivor hsane.reach.wf B hnd hpos F f2 f3 hoa hap' ha ta hau
  have hhi : heapOf (book.map newUserOrder ++ pos) i = newUserOrder oa := by rw [hheap i hi, ei]
  have hoam : oa ∈ book := by rw [← ei]; exact List.getElem_mem _
  have ai := B.ordersAre oa hoam
  have si := F.static i
  rw [hhi] at si
  have hafresh := C85_unpriced_never_traded hdust hp hn hoa hap'
  have hoffer := (hsane.orders oa hoa).offer
  have hlive : Live (newUserOrder oa) := newUser_live (hsane.orders oa hoa)
  have hliv : Live (H i) := F.live i (by rw [hhi]; exact hlive)
  have hole := hliv.open_le
  rw [si.2.2.1] at hole
  have hopos := hlive.price_pos
  rw [ai.terms.2.1] at hopos
  unfold TooSmall at ni
  push Not at ni
  have hamt : (newUserOrder oa).amount = oa.openAmt := by
    cases hd : oa.dir with
    | sell => exact ai.sell hd
    | buy =>
      obtain ⟨b1, b2, b3⟩ := ai.buy hd
      unfold NeededOffer at hoffer
      rw [hd] at hoffer
      have := b3 oa.openAmt (le_refl _) (by rw [hafresh.1, hafresh.2.1]; exact hoffer.1)
      omega
  have ea : (H i).openAmt = a.openAmt := by omega
  have hstart : a.openAmt ≤ oa.openAmt := by omega
  have hmul : oa.price * a.openAmt ≤ oa.price * oa.openAmt := Int.mul_le_mul_of_nonneg_left hstart (le_of_lt hopos)
  have hbetter : Better (heapOf (book.map newUserOrder ++ pos) i) (heapOf (book.map newUserOrder ++ pos) f.ptr) := by
    rw [hhi, hheap _ hjb, hbj]
    unfold Better
    rw [ai.terms.1, bj.terms.1, ai.terms.2.1, bj.terms.2.1, ← had, ← hbd, hdir]
    refine ⟨rfl, ?_⟩
    rw [hapr, hbpr] at hbet
    cases hd : b.dir <;> rw [hd] at hbet <;> simpa using hbet
  have ho0 : (newUserOrder oa).openAmt = oa.openAmt := by rw [ai.fresh.1, hamt]
  have hstartm : 0 < Amm.matchableAmount (newUserOrder oa) (newUserOrder oa).price := by
    rw [ai.terms.2.1]
    cases hd : oa.dir with
    | sell =>
      rw [sell_full (by rw [ai.terms.1]; exact hd) (by omega) (by rw [ho0]; unfold Dec.one; omega)]
      omega
    | buy =>
      rw [buy_full (by rw [ai.terms.1]; exact hd) hopos (by omega) (by rw [ho0]; unfold Dec.one; omega)]
      · omega
      · rw [ho0, ai.terms.2.2.2, ai.fresh.2.1, hafresh.1, hafresh.2.1, sub_zero]
        unfold NeededOffer at hoffer
        rw [hd] at hoffer
        exact hoffer.1
  have hfull := f4 f hf i (by simpa using hi) (by rw [hhi]; exact hstartm) hbetter
  rw [hhi, ho0, ea] at hfull
  unfold WithinLimit at hlim
  rw [bj.terms.1, ← hbd, bj.terms.2.1, ← hbpr] at hlim
  cases hd : oa.dir with
  | sell =>
    exfalso
    have hbs : b.dir = .sell := by rw [← hdir, had, hd]
    rw [hbs] at hbet hlim
    have hlt : a.price < b.price := by simpa using hbet
    simp only at hlim
    have h5 := Int.mul_le_mul_of_nonneg_right (show oa.price ≤ mo.price by omega) (show 0 ≤ oa.openAmt by omega)
    rw [sell_full (by rw [ai.terms.1]; exact hd) (by omega) (by rw [ho0]; unfold Dec.one; omega)] at hfull
    omega
  | buy =>
    have hbs : b.dir = .buy := by rw [← hdir, had, hd]
    rw [hbs] at hbet hlim
    have hlt : b.price < a.price := by simpa using hbet
    simp only at hlim
    refine ⟨by rw [had, hd], { p with lastPrice := resultPrice p.lastPrice (some mo), batchId := p.batchId + 1 },
      by rw [batch_pairs hdt hwt]; exact B.pair, rfl, mo.price, rfl, ?_⟩
    have ham : a.amount = oa.openAmt := by rw [ta]; exact hafresh.1.symm
    rw [ham]
    by_contra hc
    push Not at hc
    have h5 := Int.mul_le_mul_of_nonneg_right (show mo.price ≤ oa.price by omega) (show 0 ≤ oa.openAmt by omega)
    rw [buy_full (by rw [ai.terms.1]; exact hd) hmp (by omega) (by rw [ho0]; unfold Dec.one; omega)] at hfull
    · omega
    · rw [ho0, ai.terms.2.2.2, ai.fresh.2.1, hafresh.2.1, sub_zero]
      unfold NeededOffer at hoffer
      rw [hd] at hoffer
      rw [hafresh.1] at h5 ⊢
      exact le_trans h5 hoffer.1

/-- A pair without a price: a buy order for 100 coins at 1, one for 200000 coins at 0.001, and a sell order for 100000 coins at 0.001. -/
def lowOrders : List Op :=
  [.createPair ⟨1, .native 0, .native 1⟩,
   .limitOrder ⟨2, 1, .buy, ⟨.native 1, 100⟩, .native 0, 10 ^ 18, 100, 100⟩,
   .limitOrder ⟨2, 1, .buy, ⟨.native 1, 200⟩, .native 0, 10 ^ 15, 200000, 100⟩,
   .limitOrder ⟨3, 1, .sell, ⟨.native 0, 100000⟩, .native 1, 10 ^ 15, 100000, 100⟩]

/-- The hypotheses of `C25_first_trade` are met, by the case its conclusion allows: the pair trades at 0.001, where 100 coins are not
worth a quote unit, so the order at 1 is left alone while the one at 0.001 trades. -/
example : ∃ s s', ReachableWith Demo.env (fun p => SaneParams p ∧ ∀ id, p.dustCollector ≠ .poolReserve id) s ∧
    s.height % s.params.batchSize = 0 ∧ step Demo.env .endBlock s = some s' ∧ s.pairs.map (·.lastPrice) = [none] ∧
    s'.pairs.map (·.lastPrice) = [some (10 ^ 15)] ∧
    (s'.orders.filter (fun o => decide (Unfinished o))).map (fun o => (o.id, o.dir, o.price, o.amount, o.openAmt)) =
      [(1, .buy, 10 ^ 18, 100, 100), (2, .buy, 10 ^ 15, 200000, 100000)] := by
  have h : (run Demo.env lowOrders Demo.s0).any (fun s => (step Demo.env .endBlock s).any (fun s' =>
      decide (s.height % s.params.batchSize = 0) && decide (s.pairs.map (·.lastPrice) = [none]) &&
      decide (s'.pairs.map (·.lastPrice) = [some (10 ^ 15)]) &&
      decide ((s'.orders.filter (fun o => decide (Unfinished o))).map (fun o => (o.id, o.dir, o.price, o.amount, o.openAmt)) =
        [(1, .buy, 10 ^ 18, 100, 100), (2, .buy, 10 ^ 15, 200000, 100000)]))) = true := by decide +kernel
  rw [Option.any_eq_true] at h
  obtain ⟨s, h1, h2⟩ := h
  rw [Option.any_eq_true] at h2
  obtain ⟨s', h2, h3⟩ := h2
  simp only [Bool.and_eq_true, decide_eq_true_eq] at h3
  obtain ⟨⟨⟨a1, a2⟩, a3⟩, a4⟩ := h3
  refine ⟨s, s', ⟨Demo.s0, _, Demo.genesis, ⟨⟨by decide +kernel, by decide +kernel⟩, fun id e => by cases e⟩, ?_, h1⟩,
    a1, h2, a2, a3, a4⟩
  intro p hp
  simp [lowOrders] at hp

end Verif.Props

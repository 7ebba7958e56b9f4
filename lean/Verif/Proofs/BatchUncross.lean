import Verif.Proofs.PairBatch
import Verif.Proofs.PoolLive
import Verif.Proofs.Trading
import Verif.Props.Uncross
import Verif.Props.Price
/-! # No crossing orders are left by a batch (C76) -/
namespace Verif.Amm
open Verif Verif.Dec Verif.Spec

theorem sellLoop_ge (prec : Nat) {pp highest b : Int} (hpp : 0 ≤ pp) (hb : 0 < b) : ∀ (fuel : Nat) (p : Pool) (tick : Int) (acc l : List (Int × Int)),
    b ≤ tick → (∀ o ∈ acc, b ≤ o.1) → sellLoop prec pp highest fuel p tick acc = .done l → ∀ o ∈ l, b ≤ o.1 := by
  intro fuel
  induction fuel with
  | zero => intro p tick acc l _ _ h; simp [sellLoop] at h
  | succ n ih =>
    intro p tick acc l hbt ha h
    have htp : 0 < tick := by omega
    rw [sellLoop] at h
    split at h
    · have h : acc = l := by simpa using h
      rw [← h]; exact ha
    · split at h
      · simp at h
      · rename_i amt _
        split at h
        · exact ih _ _ _ _ (le_trans hbt (le_of_lt (upTick_gt htp prec))) ha h
        · have ha' : ∀ o ∈ acc ++ [(tick, amt)], b ≤ o.1 := by
            intro o ho
            rcases List.mem_append.1 ho with ho | ho
            · exact ha o ho
            · simp at ho; subst ho; exact hbt
          simp only at h
          split at h
          · have h : acc ++ [(tick, amt)] = l := by simpa using h
            rw [← h]; exact ha'
          · obtain ⟨t, e, t1, _⟩ := @nextSell tick _ prec htp (@gapSell pp tick hpp)
            rw [e] at h
            simp only at h
            exact ih _ _ _ _ (by omega) ha' h

theorem poolSell_ge {sqrt : Int → Int} {id : Nat} {p : Pool} {lo hi : Int} {prec : Nat} (hlo : 0 < lo)
    (hpp : ∀ pp, p.price = some pp → 0 ≤ pp) : ∀ o ∈ poolOrders sqrt id p lo hi prec, o.dir = .sell → lo ≤ o.price := by
  intro o ho hd
  unfold poolOrders poolBuyOrders poolSellOrders at ho
  simp only [List.mem_append, List.mem_map] at ho
  have hsl : ∀ l, poolSellOrdersRaw sqrt p lo hi prec = .done l → ∀ o ∈ l, lo ≤ o.1 := by
    intro l h
    unfold poolSellOrdersRaw at h
    split at h
    · simp at h
    · rename_i pp hp
      split at h
      · have h : l = [] := by simpa using h.symm
        subst h; simp
      · split at h
        · simp at h
        · rename_i p' acc hf
          have hacc : ∀ o ∈ acc, lo ≤ o.1 := by
            unfold sellFirst at hf
            split at hf
            · simp only [Option.bind_eq_bind, Option.bind_eq_some_iff] at hf
              obtain ⟨amt, _, hf⟩ := hf
              split at hf
              · simp only [Option.bind_eq_some_iff] at hf
                obtain ⟨q, _, hf⟩ := hf
                have hf : (q, [(lo, amt)]) = (p', acc) := by simpa using hf
                have := (Prod.mk.injEq .. ▸ hf : _ ∧ _).2
                subst this
                intro o ho
                simp at ho; subst ho
                exact le_refl _
              · have hf : (p, ([] : List (Int × Int))) = (p', acc) := by simpa using hf
                have := (Prod.mk.injEq .. ▸ hf : _ ∧ _).2
                subst this
                simp
            · have hf : (p, ([] : List (Int × Int))) = (p', acc) := by simpa using hf
              have := (Prod.mk.injEq .. ▸ hf : _ ∧ _).2
              subst this
              simp
          split at h
          · simp at h
          · rename_i pp' _
            have hmp : 0 < max lo pp' := lt_of_lt_of_le hlo (le_max_left _ _)
            have ht : priceToUpTick? (max lo pp') prec = some (priceToUpTick (max lo pp') prec) := by
              unfold priceToUpTick?; rw [if_neg (by omega)]
            rw [ht] at h
            simp only at h
            exact sellLoop_ge prec (hpp pp hp) hlo _ _ _ _ _ (le_trans (le_max_left _ _) (isCeil_up hmp prec).2.1) hacc h
  rcases ho with ⟨a, ha, rfl⟩ | ⟨a, ha, rfl⟩
  · cases hd
  · cases e : poolSellOrdersRaw sqrt p lo hi prec with
    | done l => rw [e] at ha; exact hsl l e a ha
    | panic => rw [e] at ha; cases ha
    | outOfFuel => rw [e] at ha; cases ha

theorem fillSteps_other {L : List Nat} {st st' : MState} (h : FillSteps L st st') : ∀ p, p ∉ L → st'.heap p = st.heap p := by
  induction h with
  | refl => exact fun _ _ => rfl
  | tail _ h ih =>
    obtain ⟨q, hq, amt, price, h⟩ := h
    intro p hp
    rw [← ih p hp]
    unfold fillOrder at h
    split at h
    · cases h
    · cases h
      simp only
      rw [if_neg (fun e => hp (by rw [e]; exact hq))]

theorem fillSteps_log {L : List Nat} {st st' : MState} (h : FillSteps L st st') : st'.log = [] → st' = st := by
  induction h with
  | refl => exact fun _ => rfl
  | tail _ h ih =>
    obtain ⟨q, hq, amt, price, h⟩ := h
    intro e
    unfold fillOrder at h
    split at h
    · cases h
    · cases h
      simp at e

end Verif.Amm

namespace Verif.Dex
open Verif Verif.Amm Verif.Spec

theorem keeperMatch_uncrossed {env : Env} {pr : Params} (hpr : SaneParams pr) {os : List Order} {pools : List (Nat × Pool)} {lp : Int}
    {out : Option MatchOut} (hl : ∀ o ∈ os, Live o) (hlp : Dec.one ≤ lp)
    (hlim : ∀ lo hi, pr.priceLimits lp = some (lo, hi) → Dec.one ≤ lo) (hsell : ∀ o ∈ os, o.dir = .sell → Dec.one ≤ o.price)
    (hpp : ∀ e ∈ pools, ∀ pp, e.2.price = some pp → 0 ≤ pp) (h : keeperMatch env pr os pools (some lp) = some out) :
    ∃ (pos : List Order) (H : Heap) (log : List Fill), (∀ o ∈ pos, ∃ id, o.kind = .pool id) ∧ FairExecution (heapOf (os ++ pos)) H log ∧
      (∀ y ∈ resultOrders out, ∃ j < (os ++ pos).length, y = H j) ∧
      (∀ j, H j = heapOf (os ++ pos) j ∨ H j ∈ resultOrders out) ∧
      ∀ i j, i < os.length → j < os.length → (heapOf (os ++ pos) i).dir = .buy → (heapOf (os ++ pos) j).dir = .sell →
        0 < matchableAmount (H i) (heapOf (os ++ pos) i).price → 0 < matchableAmount (H j) (heapOf (os ++ pos) j).price →
        (heapOf (os ++ pos) i).price < (heapOf (os ++ pos) j).price := by
  have h0 : 0 < lp := lt_of_lt_of_le Verif.Amm.one_pos hlp
  unfold keeperMatch at h
  simp only at h
  split at h
  · cases h
  · rename_i lo hi hlm
    obtain ⟨hlo, hhi⟩ := priceLimits_pos hpr h0 hlm
    have hlo1 := hlim lo hi hlm
    generalize hpos : pools.flatMap (fun p => poolOrders env.sqrt p.1 p.2 lo hi pr.tickPrec) = pos at h
    have hpo : ∀ o ∈ pos, (∃ e ∈ pools, IsPoolOrder e.1 o) ∧ (o.dir = .sell → lo ≤ o.price) := by
      intro o ho
      rw [← hpos] at ho
      obtain ⟨p, hp, hop⟩ := List.mem_flatMap.1 ho
      exact ⟨⟨p, hp, poolOrders_pos hlo hhi (hpp p hp) o hop⟩, poolSell_ge hlo (hpp p hp) o hop⟩
    have hal := all_live hl (fun o ho => by obtain ⟨⟨e, _, hi⟩, _⟩ := hpo o ho; exact hi.live)
    split at h
    · cases h
    · rename_i r hr
      obtain ⟨r', e1, e2, e3, e4, e5, e6, e7⟩ := Verif.Props.C20_match_fair _ _ lp h0 List.nodup_range hal
      have : some r' = some r := e1.symm.trans hr
      have := Option.some.inj this
      subst this
      have hone : ∀ p ∈ List.range (os ++ pos).length, (heapOf (os ++ pos) p).dir = .sell → Dec.one ≤ (heapOf (os ++ pos) p).price := by
        intro p hp' hd
        rw [List.mem_range] at hp'
        by_cases h : p < os.length
        · rw [heapOf_left h] at hd ⊢; exact hsell _ (List.getElem_mem _) hd
        · exact le_trans hlo1 ((hpo _ (heapOf_right (by omega) hp')).2 hd)
      have hx := Verif.Props.C65_nothing_crossed (heapOf (os ++ pos)) (List.range (os ++ pos).length) lp hlp List.nodup_range hal hone r' hr
      have hin : ∀ i, i < os.length → i ∈ List.range (os ++ pos).length := fun i hi => by
        rw [List.mem_range, List.length_append]; omega
      refine ⟨pos, r'.st.heap, r'.st.log, ?_, e2, ?_, ?_, fun i j hi hj => hx i j (hin i hi) (hin j hj)⟩
      · intro o ho
        obtain ⟨⟨e, _, hi⟩, _⟩ := hpo o ho
        exact ⟨_, hi.fresh.1⟩
      · intro y hy
        split at h
        · cases h
          obtain ⟨j, hj, rfl⟩ := List.mem_map.1 hy
          refine ⟨j, ?_, rfl⟩
          have hbk := bookOk_new (heapOf (os ++ pos)) (List.range (os ++ pos).length)
          unfold OrderBook.orders bookOf at hj
          rw [List.flatMap_append, List.mem_append] at hj
          rw [← List.mem_range]
          rcases hj with hj | hj
          · exact (eligible_mem (hbk.buys.perm.mem_iff.1 hj)).1
          · exact (eligible_mem (hbk.sells.perm.mem_iff.1 hj)).1
        · cases h; cases hy
      · intro j
        split at h
        · cases h
          by_cases hj : j ∈ (bookOf (os ++ pos)).orders
          · exact Or.inr (List.mem_map.2 ⟨j, hj, rfl⟩)
          · exact Or.inl (fillSteps_other (fills_match hr) j hj)
        · rename_i hm
          cases h
          left
          have hlog : r'.st.log = [] := by
            by_contra hne
            exact hm (e5.2 hne)
          have := fillSteps_log (fills_match hr) hlog
          rw [this]


/-- No fill, no payment. -/
theorem fair_untouched {h H : Heap} {log : List Fill} (F : FairExecution h H log) {i : Nat} (e : ¬ (H i).openAmt < (h i).openAmt) :
    (H i).openAmt = (h i).openAmt ∧ (H i).paid = (h i).paid := by
  have h1 := F.opened i
  have h2 := F.paid i
  have hnn : fillsOf log i = [] := by
    cases hf : fillsOf log i with
    | nil => rfl
    | cons f l =>
      exfalso
      have hpos : ∀ g ∈ fillsOf log i, 0 < g.amt := fun g hg => (F.fill_pos g (List.mem_filter.1 hg).1).1
      rw [hf] at hpos h1
      have hs : 0 ≤ (l.map (·.amt)).sum := by
        apply List.sum_nonneg
        intro x hx
        obtain ⟨g, hg, rfl⟩ := List.mem_map.1 hx
        exact le_of_lt (hpos g (by simp [hg]))
      have := hpos f (by simp)
      simp only [List.map_cons, List.sum_cons] at h1
      omega
  rw [hnn] at h1 h2
  simp only [List.map_nil, List.sum_nil, sub_zero, add_zero] at h1 h2
  exact ⟨h1, h2⟩

/-- An order of the pair that is unfinished after the batch was in the book, and its record is what the matching left of it. -/
theorem survivor {env : Env} {s s2 : State} (hw : WF s) {p : Pair} {book : List OrderRec} {pools : List (Nat × Pool)} {out : Option MatchOut}
    (B : PairBatch env s s2 p book pools out) (hnd : (s2.orders.map fun o => (o.pairId, o.id)).Nodup)
    {pos : List Order} {H : Heap} {log : List Fill} (hpos : ∀ o ∈ pos, ∃ id, o.kind = .pool id)
    (F : FairExecution (heapOf (book.map newUserOrder ++ pos)) H log)
    (h1 : ∀ y ∈ resultOrders out, ∃ j < (book.map newUserOrder ++ pos).length, y = H j)
    (h2 : ∀ j, H j = heapOf (book.map newUserOrder ++ pos) j ∨ H j ∈ resultOrders out)
    {o o' : OrderRec} (ho : o ∈ s.orders) (hop : o.pairId = p.id) (ho' : o' ∈ s2.orders) (hst : SameTerms o o') (hu' : Unfinished o') :
    ∃ i, ∃ hi : i < book.length, book[i] = o ∧ o'.openAmt = o.openAmt - ((newUserOrder o).amount - (H i).openAmt) ∧
      o'.remaining = o.remaining - (H i).paid ∧ ¬ TooSmall o'.openAmt o.price := by
  have huniq : ∀ x ∈ s2.orders, x.pairId = o.pairId → x.id = o.id → o' = x := by
    intro x hx h1 h2
    refine List.inj_on_of_nodup_map hnd ho' hx ?_
    unfold SameTerms at hst
    simp only [Prod.mk.injEq]
    rw [hst, h1, h2]
    exact ⟨rfl, rfl⟩
  have hu : Unfinished o := by
    by_contra hc
    have := huniq o (B.finished o ho hop hc) rfl rfl
    rw [this] at hu'
    exact hc hu'
  have hheap : ∀ i (hi : i < book.length), heapOf (book.map newUserOrder ++ pos) i = newUserOrder book[i] := by
    intro i hi
    rw [heapOf_left (by simpa using hi), List.getElem_map]
  have hkind : ∀ j, (H j).kind = (heapOf (book.map newUserOrder ++ pos) j).kind := fun j => (F.static j).2.2.2.2
  have hamt : ∀ j, (H j).amount = (heapOf (book.map newUserOrder ++ pos) j).amount := fun j => (F.static j).2.2.1
  by_cases ht : ∃ y ∈ resultOrders out, y.kind = .user o.id o.batchId ∧ y.openAmt < y.amount
  · obtain ⟨y, hy, hk, hlt⟩ := ht
    obtain ⟨j, hj, rfl⟩ := h1 y hy
    have hjb : j < book.length := by
      by_contra hc
      have hm := heapOf_right (os := book.map newUserOrder) (pos := pos) (i := j) (by simpa using hc) hj
      obtain ⟨id, e⟩ := hpos _ hm
      rw [hkind j, e] at hk
      cases hk
    have hbj : book[j] = o := by
      have hk2 := hk
      rw [hkind j, hheap j hjb] at hk2
      have e := ((B.ordersAre _ (List.getElem_mem hjb)).terms.2.2.1).symm.trans hk2
      obtain ⟨j1, j2, _⟩ := (B.bookIs _).1 (List.getElem_mem hjb)
      injection e with e1 e2
      exact hw.ordersS.inj j1 ho (by unfold OrderRec.key; rw [j2, e1, hop])
    have hob : o ∈ book := by rw [← hbj]; exact List.getElem_mem _
    obtain ⟨x, hx, hax⟩ := B.tradedOrders o hob _ hy hk hlt
    have hxo : o' = x := by
      apply huniq x hx
      · rcases hax with ⟨_, rfl⟩ | ⟨_, _, rfl⟩ | ⟨_, _, rfl⟩ <;> rfl
      · rcases hax with ⟨_, rfl⟩ | ⟨_, _, rfl⟩ | ⟨_, _, rfl⟩ <;> rfl
    subst hxo
    have ea : (H j).amount = (newUserOrder o).amount := by rw [hamt j, hheap j hjb, hbj]
    refine ⟨j, hjb, hbj, ?_⟩
    rcases hax with ⟨_, rfl⟩ | ⟨_, _, rfl⟩ | ⟨_, hn, rfl⟩
    · exact absurd hu' (by unfold Unfinished; simp)
    · exact absurd hu' (by unfold Unfinished; simp)
    · push Not at hn
      refine ⟨?_, ?_, hn.2⟩
      · unfold traded; simp only; rw [ea]
      · unfold traded; rfl
  · push Not at ht
    have ht' : ∀ y ∈ resultOrders out, y.kind = .user o.id o.batchId → ¬ y.openAmt < y.amount := fun y hy hk => not_lt.2 (ht y hy hk)
    obtain ⟨x, hx, hax⟩ := B.otherOrders o ho hop hu ht'
    have hxo : o' = x := by
      apply huniq x hx
      · rcases hax with ⟨_, rfl⟩ | ⟨_, rfl⟩ <;> rfl
      · rcases hax with ⟨_, rfl⟩ | ⟨_, rfl⟩ <;> rfl
    subst hxo
    rcases hax with ⟨_, rfl⟩ | ⟨hn, rfl⟩
    · exact absurd hu' (by unfold Unfinished; simp)
    · push Not at hn
      have hob : o ∈ book := (B.bookIs o).2 ⟨ho, hop, hu, Or.inr hn.1⟩
      obtain ⟨i, hi, hbi⟩ := List.getElem_of_mem hob
      have hbo := B.ordersAre o hob
      have hh : heapOf (book.map newUserOrder ++ pos) i = newUserOrder o := by rw [hheap i hi, hbi]
      have hne : ¬ (H i).openAmt < (heapOf (book.map newUserOrder ++ pos) i).openAmt := by
        rcases h2 i with e | e
        · rw [e]; exact lt_irrefl _
        · have := ht' _ e (by rw [hkind i, hh]; exact hbo.terms.2.2.1)
          rw [hamt i, hh] at this
          rw [hh, hbo.fresh.1]; exact this
      obtain ⟨f1, f2⟩ := fair_untouched F hne
      rw [hh] at f1 f2
      rw [hbo.fresh.1] at f1
      rw [hbo.fresh.2.1] at f2
      refine ⟨i, hi, hbi, ?_, ?_, hn.2⟩
      · simp only; rw [f1]; omega
      · simp only; rw [f2]; omega

theorem buy_matchable {o : Order} (hd : o.dir = .buy) {price : Int} (hp : Dec.one ≤ price) (ho : 0 < o.openAmt)
    (hr : price ≤ (o.offer - o.paid) * Dec.one) : 0 < matchableAmount o price := by
  have h1 := Verif.Amm.one_pos
  have hr0 : 0 ≤ o.offer - o.paid := by
    by_contra hc
    have : (o.offer - o.paid) * Dec.one ≤ 0 := Int.mul_nonpos_of_nonpos_of_nonneg (by omega) (by omega)
    omega
  unfold matchableAmount
  rw [hd]
  simp only
  rw [quoTrunc_eq hr0 (by omega)]
  have hm : 1 ≤ (o.offer - o.paid) * Dec.one / price := by
    rw [Int.le_ediv_iff_mul_le (by omega)]; omega
  generalize (o.offer - o.paid) * Dec.one / price = m at hm
  have hm1 : 1 ≤ min o.openAmt m := by omega
  have hge : Dec.one * 1 ≤ price * min o.openAmt m := Int.mul_le_mul hp hm1 (by omega) (by omega)
  have hq := quoteFloor_spec (p := price) (a := min o.openAmt m) (by omega)
  rw [if_neg]
  · omega
  · intro e
    rw [e] at hq
    omega

theorem sell_matchable {o : Order} (hd : o.dir = .sell) {price : Int} (ho : 0 < o.openAmt)
    (hr : Dec.one ≤ price * o.openAmt) : 0 < matchableAmount o price := by
  have h1 := Verif.Amm.one_pos
  unfold matchableAmount
  rw [hd]
  simp only
  have hq := quoteFloor_spec (p := price) (a := o.openAmt) (by omega)
  rw [if_neg]
  · exact ho
  · intro e
    rw [e] at hq
    omega

theorem low_limit {last ratio lo hi : Int} {prec : Nat} (h : 10 ^ 36 ≤ last * (10 ^ 18 - ratio))
    (hl : priceLimits last ratio prec = some (lo, hi)) : Dec.one ≤ lo := by
  rw [show (10 : Int) ^ 18 = Dec.one from rfl] at h
  have hm := Verif.Props.roundedProduct (a := last) (b := Dec.one - ratio) (by omega)
  have h1 : Dec.one ≤ Dec.mul last (Dec.one - ratio) := by
    obtain ⟨h1, _, _⟩ := hm
    generalize Dec.mul last (Dec.one - ratio) = c at *
    generalize last * (Dec.one - ratio) = d at *
    unfold Dec.one
    omega
  unfold priceLimits at hl
  have hp : 0 < Dec.mul last (Dec.one - ratio) := lt_of_lt_of_le Verif.Amm.one_pos h1
  have hu : priceToUpTick? (Dec.mul last (Dec.one - ratio)) prec = some (priceToUpTick (Dec.mul last (Dec.one - ratio)) prec) := by
    unfold priceToUpTick?; rw [if_neg (by omega)]
  rw [hu] at hl
  split at hl
  · rename_i a b e1 e2
    have hl := Option.some.inj hl
    have e3 := Option.some.inj e1
    rw [Prod.mk.injEq] at hl
    rw [← hl.1, ← e3]
    exact le_trans h1 (isCeil_up hp prec).2.1
  · cases hl

theorem batch_orders {env : Env} {s2 s3 s' : State} {ds : List DepReq} {ws : List WdReq} (hd : InTurn (DepositTurn env) ds s2 s3)
    (hw : InTurn (WithdrawTurn env) ws s3 s') : s'.orders = s2.orders := by
  have e1 : ∀ (l : List DepReq) (a b : State), InTurn (DepositTurn env) l a b → b.orders = a.orders := by
    intro l a b hT
    induction hT with
    | nil => rfl
    | cons h _ ih =>
      rw [ih]
      rcases h with ⟨_, r, h, _⟩ | ⟨_, rfl⟩
      · exact h.rest.2.2.2.2.2.1
      · rfl
  have e2 : ∀ (l : List WdReq) (a b : State), InTurn (WithdrawTurn env) l a b → b.orders = a.orders := by
    intro l a b hT
    induction hT with
    | nil => rfl
    | cons h _ ih =>
      rw [ih]
      rcases h with ⟨_, r, h, _⟩ | ⟨_, rfl⟩
      · exact h.rest.2.2.2.2.2.1
      · rfl
  rw [e2 _ _ _ hw, e1 _ _ _ hd]

theorem explained_untraded {o : OrderRec} (h : Explained o) (ho : o.openAmt = o.amount) : o.remaining = o.offer := by
  obtain ⟨l, hf⟩ := h.trades
  have h1 := hf.opened
  have h2 := hf.paid
  simp only at h1 h2
  have : l = [] := by
    cases l with
    | nil => rfl
    | cons f l =>
      exfalso
      have hs : 0 ≤ total (fun f : Trade => f.amt) l := by
        apply List.sum_nonneg
        intro x hx
        obtain ⟨g, hg, rfl⟩ := List.mem_map.1 hx
        exact le_of_lt (hf.each g (by simp [hg])).1
      have := (hf.each f (by simp)).1
      unfold total at h1 hs
      simp only [List.map_cons, List.sum_cons] at h1
      omega
  subst this
  simpa [total] using h2

end Verif.Dex

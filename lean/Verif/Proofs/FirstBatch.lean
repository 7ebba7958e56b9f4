import Verif.Proofs.BatchUncross
import Verif.Proofs.TickPrices
import Verif.Props.PairBatch
import Verif.Props.Ranges
import Verif.Props.Batch
import Verif.Spec.First
/-! # The first batch of a pair (C76, C85) -/
namespace Verif.Amm
open Verif Verif.Dec Verif.Spec

theorem multiple_single (v : OrderView) : multipleOrderViews [v] = v := by
  unfold multipleOrderViews
  cases v with
  | mk hb ls b s =>
    simp only [List.foldl_cons, List.foldl_nil, zero_add, OrderView.mk.injEq, and_true]
    constructor
    · cases hb <;> simp [multiHighest]
    · cases ls <;> simp [multiLowest]

end Verif.Amm

namespace Verif.Dex
open Verif Verif.Amm Verif.Spec

/-- Every order of a pair without a last price has the property. -/
def Unpriced (R : OrderRec → Prop) (s : State) : Prop :=
  ∀ p ∈ s.pairs, p.lastPrice = none → ∀ o ∈ s.orders, o.pairId = p.id → R o

variable {s s' : State}

theorem resultPrice_none {old : Option Int} {out : Option MatchOut} (h : resultPrice old out = none) : old = none ∧ out = none := by
  cases out with
  | none => exact ⟨h, rfl⟩
  | some o => cases h

theorem batch_pairs {env : Env} {s2 s3 s' : State} {ds : List DepReq} {ws : List WdReq} (hdt : InTurn (DepositTurn env) ds s2 s3)
    (hwt : InTurn (WithdrawTurn env) ws s3 s') : s'.pairs = s2.pairs := by
  have e1 : ∀ (l : List DepReq) (a b : State), InTurn (DepositTurn env) l a b → b.pairs = a.pairs := by
    intro l a b hT
    induction hT with
    | nil => rfl
    | cons h _ ih =>
      rw [ih]
      rcases h with ⟨_, r, h, _⟩ | ⟨_, rfl⟩
      · exact h.rest.2.2.2.1
      · rfl
  have e2 : ∀ (l : List WdReq) (a b : State), InTurn (WithdrawTurn env) l a b → b.pairs = a.pairs := by
    intro l a b hT
    induction hT with
    | nil => rfl
    | cons h _ ih =>
      rw [ih]
      rcases h with ⟨_, r, h, _⟩ | ⟨_, rfl⟩
      · exact h.rest.2.2.2.1
      · rfl
  rw [e2 _ _ _ hwt, e1 _ _ _ hdt]

theorem unpriced_batch {R : OrderRec → Prop} (hR : ∀ o st, R o → R { o with status := st }) {env : Env} (hs : Reachable env s)
    (h : executeRequests env s = some s') (hdust : ∀ id, s.params.dustCollector ≠ .poolReserve id) (hU : Unpriced R s) : Unpriced R s' := by
  intro p' hp' hnone o' ho' hop'
  obtain ⟨s2, s3, hB, hbp, _, hback, hnp, _, hnd, _, _, _, _, _, _, _, _, _, _, hdt, hwt⟩ := Verif.Props.C45_batch_spec hs h hdust
  have hpairs : s'.pairs = s2.pairs := batch_pairs hdt hwt
  rw [batch_orders hdt hwt] at ho'
  rw [hpairs] at hp'
  obtain ⟨p, hp, hid⟩ := hbp p' hp'
  obtain ⟨book, pools, out, B⟩ := hB p hp
  have he : p' = { p with lastPrice := resultPrice p.lastPrice out, batchId := p.batchId + 1 } :=
    List.inj_on_of_nodup_map hnp hp' B.pair hid
  rw [he] at hnone
  obtain ⟨hn, rfl⟩ := resultPrice_none hnone
  obtain ⟨o, ho, hst⟩ := hback o' ho'
  have hop : o.pairId = p.id := by rw [← hid, ← hop', hst]
  have huniq : ∀ x ∈ s2.orders, x.pairId = o.pairId → x.id = o.id → o' = x := by
    intro x hx h1 h2
    refine List.inj_on_of_nodup_map hnd ho' hx ?_
    unfold SameTerms at hst
    simp only [Prod.mk.injEq]
    rw [hst, h1, h2]
    exact ⟨rfl, rfl⟩
  have hRo := hU p hp hn o ho hop
  by_cases hu : Unfinished o
  · obtain ⟨x, hx, hax⟩ := B.otherOrders o ho hop hu (fun y hy => by cases hy)
    rcases hax with ⟨_, rfl⟩ | ⟨_, rfl⟩
    · rw [huniq _ hx rfl rfl]; exact hR _ _ hRo
    · rw [huniq _ hx rfl rfl]; exact hR _ _ hRo
  · rw [huniq _ (B.finished o ho hop hu) rfl rfl]; exact hRo

theorem unpriced_step {R : OrderRec → Prop} (hR : ∀ o st, R o → R { o with status := st }) {env : Env} (hs : Reachable env s)
    (hdust : ∀ id, s.params.dustCollector ≠ .poolReserve id) {op : Op} (h : step env op s = some s') (hU : Unpriced R s)
    (hnew : ∀ o ∈ s'.orders, o ∉ s.orders → ∀ p ∈ s.pairs, p.id = o.pairId → p.lastPrice = none → (∃ m, op = .limitOrder m) ∨ (∃ m, op = .marketOrder m) ∨ (∃ m, op = .mmOrder m) → R o) :
    Unpriced R s' := by
  have hw := hs.wf
  have hr : Reachable env s' := hs.run (ops := [op]) (by simp [Dex.run, h])
  by_cases h1 : ∃ a b, op = .beginBlock a b
  · obtain ⟨a, b, rfl⟩ := h1
    cases h
    exact fun p hp hn o ho => hU p hp hn o (List.mem_filter.1 ho).1
  by_cases h2 : op = .endBlock
  · subst h2
    by_cases hb : s.height % s.params.batchSize = 0
    · exact unpriced_batch hR hs ((Verif.Props.C45_on_batch hs hb).symm.trans h) hdust hU
    · have h' : endBlock env s = some s' := h
      unfold endBlock at h'
      split at h'
      · cases h'
      · cases h'; exact hU
  have hE := step_effect hw (by push Not at h1; exact h1) h2 h
  intro p' hp' hn o ho hop
  -- the pair before
  have hpair : (∃ p ∈ s.pairs, p.id = p'.id ∧ p.lastPrice = none) ∨ ((∀ x ∈ s.orders, x.pairId ≠ p'.id) ∧ ∀ p ∈ s.pairs, p.id ≠ p'.id) := by
    by_cases hin : ∃ p ∈ s.pairs, p.id = p'.id
    · obtain ⟨p, hp, e⟩ := hin
      left
      obtain ⟨q, hq, eq⟩ := (effect_pairs hw hr.wf hE).1 p hp
      have : q = p' := hr.wf.key_pair hq hp' (by rw [eq]; exact e)
      subst this
      exact ⟨p, hp, e, by rw [eq] at hn; exact hn⟩
    · right
      refine ⟨?_, fun p hp e => hin ⟨p, hp, e⟩⟩
      intro x hx e
      obtain ⟨_, _, q, hq, e1, _⟩ := hw.ords x hx
      exact hin ⟨q, hq, by rw [e1, e]⟩
  have hsame : ∀ x ∈ s.orders, x.pairId = p'.id → R x := by
    intro x hx e
    rcases hpair with ⟨p, hp, hid, hnn⟩ | ⟨hno, _⟩
    · exact hU p hp hnn x hx (by rw [e, hid])
    · exact absurd e (hno x hx)
  have heq : s'.orders = s.orders → R o := fun e => hsame o (e ▸ ho) hop
  cases hE with
  | same _ e => exact heq (by rw [e])
  | pair m b hb e => exact heq (by rw [e]; rfl)
  | pool m pr cs mt h' => exact heq h'.rest.2.2.2.2.2.1
  | ranged m pr cs mt h' => exact heq h'.rest.2.2.2.2.2.1
  | deposit m p r h' => exact heq h'.rest.2.2.2.2.2.1
  | withdraw m p r h' => exact heq h'.rest.2.2.2.2.2.1
  | transfer src dst cs b hb e => exact heq (by rw [e])
  | params p hv e => exact heq (by rw [e])
  | cancel _ hop' hf hs ho' hl =>
    rcases ho' o ho with hx | ⟨x, h1, _, rfl⟩
    · exact hsame o hx hop
    · exact hR _ _ (hsame x h1 hop)
  | order _ hopp p x hx hpos =>
    by_cases hin : o ∈ s.orders
    · exact hsame o hin hop
    · rcases (hx.orders o).1 ho with hc | rfl
      · exact absurd hc hin
      · rcases hpair with ⟨q, hq, hid, hnn⟩ | ⟨_, hnp⟩
        · exact hnew o ho hin q hq (by rw [hid, hop]) hnn hopp
        · exact absurd (by rw [← hx.pair.2]; exact hop) (hnp p hx.pair.1)

/-- The dust collector is not a reserve. -/
def DustApart (p : Params) : Prop := ∀ id, p.dustCollector ≠ .poolReserve id

theorem unpriced_run {P : Params → Prop} (hPd : ∀ p, P p → DustApart p) {R : OrderRec → Prop} (hR : ∀ o st, R o → R { o with status := st }) {env : Env}
    (hnew : ∀ (s s' : State) (op : Op), Reachable env s → P s.params → step env op s = some s' → ∀ o ∈ s'.orders, o ∉ s.orders →
      ∀ p ∈ s.pairs, p.id = o.pairId → p.lastPrice = none →
        (∃ m, op = .limitOrder m) ∨ (∃ m, op = .marketOrder m) ∨ (∃ m, op = .mmOrder m) → R o) :
    ∀ {ops : List Op} {s s' : State}, Reachable env s → P s.params → (∀ p, Op.setParams p ∈ ops → P p) → Unpriced R s →
      run env ops s = some s' → Unpriced R s'
  | [], _, _, _, _, _, hT, h => by cases h; exact hT
  | op :: ops, s, s', hc, hp, hops, hT, h => by
    simp only [run, Option.bind_eq_some_iff] at h
    obtain ⟨t, h1, h2⟩ := h
    have hrun : run env [op] s = some t := by simp [Dex.run, h1]
    have hpt : P t.params := params_run (P := P) (ops := [op]) hc.wf hp (fun p h => hops p (by simp at h; simp [h])) hrun
    exact unpriced_run hPd hR hnew (hc.run hrun) hpt (fun p h => hops p (by simp [h]))
      (unpriced_step hR hc (hPd _ hp) h1 hT (hnew s t op hc hp h1)) h2

theorem unpriced_reachable {P : Params → Prop} (hPd : ∀ p, P p → DustApart p) {R : OrderRec → Prop}
    (hR : ∀ o st, R o → R { o with status := st }) {env : Env}
    (hnew : ∀ (s s' : State) (op : Op), Reachable env s → P s.params → step env op s = some s' → ∀ o ∈ s'.orders, o ∉ s.orders →
      ∀ p ∈ s.pairs, p.id = o.pairId → p.lastPrice = none →
        (∃ m, op = .limitOrder m) ∨ (∃ m, op = .marketOrder m) ∨ (∃ m, op = .mmOrder m) → R o)
    (h : ReachableWith env P s) : Unpriced R s := by
  obtain ⟨s0, ops, hg, hp, hops, h⟩ := h
  refine unpriced_run hPd hR hnew ⟨s0, [], hg, rfl⟩ hp hops ?_ h
  intro p _ _ o ho
  rw [hg.orders] at ho; cases ho

theorem untouched_reachable {env : Env} (h : ReachableWith env DustApart s) : Unpriced NotTraded s := by
  refine unpriced_reachable (P := DustApart) (fun _ h => h) (fun o st h => h) ?_ h
  intro s s' op hs _ h o ho hno p hp hid hn hop
  have hE := step_effect hs.wf (by rintro a b rfl; rcases hop with ⟨m, e⟩ | ⟨m, e⟩ | ⟨m, e⟩ <;> cases e)
    (by rintro rfl; rcases hop with ⟨m, e⟩ | ⟨m, e⟩ | ⟨m, e⟩ <;> cases e) h
  have key : ∀ q x, OrderPlaced q x s s' → NotTraded o := by
    intro q x hx
    rcases (hx.orders o).1 ho with hc | rfl
    · exact absurd hc hno
    · exact ⟨hx.fresh.2.1, hx.offer.2, hx.fresh.2.2.1⟩
  rcases hop with ⟨m, rfl⟩ | ⟨m, rfl⟩ | ⟨m, rfl⟩
  all_goals
    cases hE with
    | same _ e => exact absurd (e ▸ ho) hno
    | cancel _ hop' hf hs ho' hl => rcases hop' with ⟨m, e⟩ | ⟨m, e⟩ <;> cases e
    | order _ hopp q x hx hpos => exact key q x hx

/-- The price of an order placed on a pair without a last price is a supported one, and the order is no market order. -/
theorem placed_inRange (hw : WF s) (hp : SaneParams s.params) {typ : OType} {orderer pairId : Nat} {dir : Dir} {offer : Coin} {demand : Denom}
    {price amount lifespan : Int} (h : placeOrder typ orderer pairId dir offer demand price amount lifespan s = some s')
    {o : OrderRec} (ho : o ∈ s'.orders) (hno : o ∉ s.orders) {p : Pair} (hpm : p ∈ s.pairs) (hid : p.id = o.pairId) (hn : p.lastPrice = none) :
    InRange s.params.tickPrec o.price ∧ o.typ ≠ .market := by
  obtain ⟨q, x, e, _, et, _, _, _, _, _, _, _, _, e11, e12, _⟩ := placeOrder_spec hw h
  rcases (e.orders o).1 ho with hc | rfl
  · exact absurd hc hno
  have : q = p := hw.key_pair e.pair.1 hpm (by rw [hid, ← e.pair.2])
  subst this
  have hm : typ ≠ .market := by
    rintro rfl
    simp [priceAllowed, hn] at e12
  refine ⟨?_, by rw [et]; exact hm⟩
  have hb : lowestTick s.params.tickPrec ≤ price ∧ price ≤ highestTick s.params.tickPrec := by
    unfold priceAllowed at e12
    rw [hn] at e12
    have hl : lowestTick? s.params.tickPrec = some (lowestTick s.params.tickPrec) := by
      unfold lowestTick?; rw [if_pos hp.prec]
    rw [hl] at e12
    cases typ with
    | market => exact absurd rfl hm
    | limit => simpa [and_comm] using e12
    | mm => simpa [and_comm] using e12
  have h0 : 0 < price := lt_of_lt_of_le (lowestTick_pos _) hb.1
  have ho : orderPrice s.params q typ dir price = (match dir with
      | .buy => priceToDownTick? price s.params.tickPrec | .sell => priceToUpTick? price s.params.tickPrec) := by
    cases typ with
    | market => exact absurd rfl hm
    | limit => cases dir <;> rfl
    | mm => cases dir <;> rfl
  rw [ho] at e11
  cases dir with
  | buy =>
    have e11 : priceToDownTick? price s.params.tickPrec = some o.price := e11
    rw [← down?_some e11]
    exact ⟨isTick_down h0 _, down_greatest h0 (isTick_lowest _) hb.1, le_trans (down_le h0 _) hb.2⟩
  | sell =>
    have e11 : priceToUpTick? price s.params.tickPrec = some o.price := e11
    rw [← up?_some e11]
    have hc := isCeil_up h0 s.params.tickPrec
    exact ⟨hc.1, le_trans hb.1 hc.2.1, hc.2.2 _ (isTick_highest _) hb.2⟩

theorem inRange_reachable {env : Env} {prec : Nat} (h : ReachableWith env (Steady prec) s) :
    Unpriced (fun o => InRange prec o.price ∧ o.typ ≠ .market) s := by
  refine unpriced_reachable (P := Steady prec) (fun _ h => h.1.2) (fun o st h => h) ?_ h
  intro s s' op hs hP h o ho hno p hp hid hn hop
  have hcase : ∀ (valid : Bool) (handler : State → Option State), some (tx valid handler s) = some s' →
      (∀ t, handler s = some t → o ∈ t.orders → InRange s.params.tickPrec o.price ∧ o.typ ≠ .market) →
      InRange prec o.price ∧ o.typ ≠ .market := by
    intro valid handler h he
    rw [← hP.2]
    cases h
    rcases tx_cases (valid := valid) (handler := handler) (s := s) with e | ⟨_, e⟩
    · rw [e] at ho; exact absurd ho hno
    · exact he _ e ho
  rcases hop with ⟨m, rfl⟩ | ⟨m, rfl⟩ | ⟨m, rfl⟩
  · exact hcase _ _ h (fun t e ho => placed_inRange hs.wf hP.1.1 e ho hno hp hid hn)
  · exact hcase _ _ h (fun t e ho => placed_inRange hs.wf hP.1.1 e ho hno hp hid hn)
  · refine hcase _ _ h (fun t e ho => ?_)
    unfold mmOrder at e
    simp only at e
    split at e
    · cases e
    · rw [Option.map_eq_some_iff] at e
      obtain ⟨t, ht, rfl⟩ := e
      exact placed_inRange (s' := t) hs.wf hP.1.1 ht ho hno hp hid hn

/-- The first match of a pair without pools. -/
theorem firstMatch_uncrossed {env : Env} {pr : Params} (hpr : SaneParams pr) {os : List Order} {out : Option MatchOut}
    (hl : ∀ o ∈ os, Live o) (hf : ∀ o ∈ os, Funded o) (ht : ∀ o ∈ os, InRange pr.tickPrec o.price)
    (hsell : ∀ o ∈ os, o.dir = .sell → Dec.one ≤ o.price) (h : keeperMatch env pr os [] none = some out) :
    ∃ (H : Heap) (log : List Fill), FairExecution (heapOf os) H log ∧
      (∀ y ∈ resultOrders out, ∃ j < os.length, y = H j) ∧ (∀ j, H j = heapOf os j ∨ H j ∈ resultOrders out) ∧
      ∀ i j, i < os.length → j < os.length → (heapOf os i).dir = .buy → (heapOf os j).dir = .sell →
        0 < matchableAmount (H i) (heapOf os i).price → 0 < matchableAmount (H j) (heapOf os j).price →
        (heapOf os i).price < (heapOf os j).price := by
  have hin : ∀ i, i < os.length → i ∈ List.range os.length := fun i hi => List.mem_range.2 hi
  have hall : ∀ {Q : Order → Prop}, (∀ o ∈ os, Q o) → ∀ p ∈ List.range os.length, Q (heapOf os p) := by
    intro Q hQ p hp
    rw [List.mem_range] at hp
    have := heapOf_left (os := os) (pos := []) hp
    rw [List.append_nil] at this
    rw [this]; exact hQ _ (List.getElem_mem _)
  have hlive := hall hl
  have key := fun i j (hi : i < os.length) (hj : j < os.length) hb hs =>
    Verif.Props.C65_first_price_uncrossed (heapOf os) (List.range os.length) pr.tickPrec hpr.prec List.nodup_range hlive (hall hf) (hall ht)
      (hall (Q := fun o => o.dir = .sell → Dec.one ≤ o.price) hsell) i j (hin i hi) (hin j hj) hb hs
  unfold keeperMatch at h
  simp only [List.any_nil, Bool.false_eq_true, if_false, List.map_nil, multiple_single, singlePriceOrders, List.append_nil] at h
  split at h
  · rename_i hm
    cases h
    refine ⟨heapOf os, [], (ValidSeq.nil _).fair, (fun y hy => by cases hy), fun j => Or.inl rfl, ?_⟩
    exact fun i j hi hj hb hs => (key i j hi hj hb hs).2 hm
  · rename_i mp hm
    have hmp : 0 < mp := by
      exact findMatchPrice_pos hpr.prec hm
    obtain ⟨st, x, e1, e2, e3, e4⟩ := Verif.Props.C20_single_price_fair (heapOf os) (List.range os.length) mp hmp List.nodup_range hlive
    have e1 : matchAtSinglePrice (heapOf os) (bookOf os) mp = some (st, x) := e1
    rw [e1] at h
    refine ⟨st.heap, st.log, e2, ?_, ?_, ?_⟩
    · intro y hy
      cases x with
      | false => cases h; cases hy
      | true =>
        cases h
        obtain ⟨j, hj, rfl⟩ := List.mem_map.1 hy
        refine ⟨j, ?_, rfl⟩
        have hbk := bookOk_new (heapOf os) (List.range os.length)
        unfold OrderBook.orders bookOf at hj
        rw [List.flatMap_append, List.mem_append] at hj
        rw [← List.mem_range]
        rcases hj with hj | hj
        · exact (eligible_mem (hbk.buys.perm.mem_iff.1 hj)).1
        · exact (eligible_mem (hbk.sells.perm.mem_iff.1 hj)).1
    · intro j
      cases x with
      | true =>
        cases h
        by_cases hj : j ∈ (bookOf os).orders
        · exact Or.inr (List.mem_map.2 ⟨j, hj, rfl⟩)
        · exact Or.inl (fillSteps_other (fills_single e1) j hj)
      | false =>
        left
        have hlog : st.log = [] := by
          by_contra hne
          exact absurd (e4.2 hne) (by simp)
        rw [fillSteps_log (fills_single e1) hlog]
    · exact fun i j hi hj hb hs => (key i j hi hj hb hs).1 mp st x hm e1

end Verif.Dex

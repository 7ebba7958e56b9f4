import Verif.Spec.Trade
import Verif.Proofs.PoolLive
import Verif.Proofs.BatchTrace
/-! # Every stored order is explained by trades within its limits -/
namespace Verif.Dex
open Verif Verif.Amm Verif.Spec

variable {s s' : State}

theorem total_append {α : Type} (f : α → Int) (a b : List α) : total f (a ++ b) = total f a + total f b := by
  unfold total; rw [List.map_append, List.sum_append]

theorem total_map' {α β : Type} (g : α → β) (f : β → Int) (l : List α) : total f (l.map g) = total (fun x => f (g x)) l := by
  unfold total; rw [List.map_map]; rfl

theorem total_nonneg' {α : Type} {f : α → Int} {l : List α} (h : ∀ x ∈ l, 0 ≤ f x) : 0 ≤ total f l := by
  unfold total
  apply List.sum_nonneg
  intro x hx
  obtain ⟨c, hc, rfl⟩ := List.mem_map.1 hx
  exact h c hc

theorem quoteDown_nonneg {p a : Int} (hp : 0 < p) (ha : 0 < a) : 0 ≤ quoteDown p a :=
  Int.ediv_nonneg (le_of_lt (Int.mul_pos hp ha)) (by decide)

theorem quoteUp_nonneg {p a : Int} (hp : 0 < p) (ha : 0 < a) : 0 ≤ quoteUp p a := by
  unfold quoteUp
  have h := Int.mul_pos hp ha
  have : -(p * a) / 10 ^ 18 ≤ 0 := Int.ediv_nonpos_of_nonpos_of_neg (by omega) (by norm_num)
  omega

theorem cost_nonneg {d : Dir} {p a : Int} (hp : 0 < p) (ha : 0 < a) : 0 ≤ cost d p a := by
  cases d
  · exact quoteUp_nonneg hp ha
  · exact le_of_lt ha

theorem gain_nonneg {d : Dir} {p a : Int} (hp : 0 < p) (ha : 0 < a) : 0 ≤ gain d p a := by
  cases d
  · exact le_of_lt ha
  · exact quoteDown_nonneg hp ha

theorem sameTerms_refl (o : OrderRec) : SameTerms o o := rfl

theorem sameTerms_trans {a b c : OrderRec} (h : SameTerms a b) (h' : SameTerms b c) : SameTerms a c := by
  unfold SameTerms at *
  rw [h'] ; rw [h]

theorem sameTerms_dir {a b : OrderRec} (h : SameTerms a b) : b.dir = a.dir := by unfold SameTerms at h; rw [h]
theorem sameTerms_price {a b : OrderRec} (h : SameTerms a b) : b.price = a.price := by unfold SameTerms at h; rw [h]
theorem sameTerms_amount {a b : OrderRec} (h : SameTerms a b) : b.amount = a.amount := by unfold SameTerms at h; rw [h]
theorem sameTerms_offer {a b : OrderRec} (h : SameTerms a b) : b.offer = a.offer := by unfold SameTerms at h; rw [h]

theorem _root_.Verif.Spec.FilledBy.nil {o o' : OrderRec} (h : SameTerms o o') (h1 : o'.openAmt = o.openAmt) (h2 : o'.remaining = o.remaining)
    (h3 : o'.received = o.received) : FilledBy [] o o' :=
  ⟨h, by simp, by simp [total, h1], by simp [total, h2], by simp [total, h3]⟩

theorem _root_.Verif.Spec.FilledBy.trans {a b c : OrderRec} {l m : List Trade} (h : FilledBy l a b) (h' : FilledBy m b c) : FilledBy (l ++ m) a c := by
  have hd := sameTerms_dir h.terms
  refine ⟨sameTerms_trans h.terms h'.terms, ?_, ?_, ?_, ?_⟩
  · intro f hf
    rcases List.mem_append.1 hf with hf | hf
    · exact h.each f hf
    · have := h'.each f hf
      refine ⟨this.1, this.2.1, ?_⟩
      have h3 := this.2.2
      unfold Acceptable at *
      rw [hd, sameTerms_price h.terms] at h3
      exact h3
  · rw [total_append, h'.opened, h.opened]; ring
  · rw [total_append, h'.paid, h.paid, hd]; ring
  · rw [total_append, h'.received, h.received, hd]; ring

/-- Consequences of being explained. -/
theorem _root_.Verif.Spec.Explained.facts {o : OrderRec} (h : Explained o) : o.openAmt ≤ o.amount ∧ o.remaining ≤ o.offer ∧ 0 ≤ o.received ∧
    (o.dir = .sell → o.remaining = o.openAmt) ∧ (o.dir = .buy → o.received = o.amount - o.openAmt) := by
  obtain ⟨l, hl⟩ := h.trades
  have h1 := hl.opened
  have h2 := hl.paid
  have h3 := hl.received
  have t1 : 0 ≤ total (fun f : Trade => f.amt) l := total_nonneg' (fun f hf => le_of_lt (hl.each f hf).1)
  have t2 : 0 ≤ total (fun f : Trade => cost o.dir f.price f.amt) l :=
    total_nonneg' (fun f hf => cost_nonneg (hl.each f hf).2.1 (hl.each f hf).1)
  have t3 : 0 ≤ total (fun f : Trade => gain o.dir f.price f.amt) l :=
    total_nonneg' (fun f hf => gain_nonneg (hl.each f hf).2.1 (hl.each f hf).1)
  simp only at h1 h2 h3
  refine ⟨by omega, by omega, by omega, ?_, ?_⟩
  · intro hd
    have ho := h.offer
    rw [hd] at ho h2
    simp only [NeededOffer, cost] at ho h2
    omega
  · intro hd
    rw [hd] at h3
    simp only [gain] at h3
    omega

theorem _root_.Verif.Spec.Explained.next {o o' : OrderRec} {l : List Trade} (h : Explained o) (hf : FilledBy l o o') (h1 : 0 ≤ o'.openAmt)
    (h2 : 0 ≤ o'.remaining) : Explained o' := by
  obtain ⟨m, hm⟩ := h.trades
  refine ⟨by rw [sameTerms_price hf.terms]; exact h.price, by rw [sameTerms_amount hf.terms]; exact h.amount, ?_, h1, h2, m ++ l, ?_⟩
  · rw [sameTerms_dir hf.terms, sameTerms_price hf.terms, sameTerms_amount hf.terms, sameTerms_offer hf.terms]; exact h.offer
  · have := hm.trans hf
    have he : ({ o with openAmt := o.amount, remaining := o.offer, received := 0 } : OrderRec).status = o.status := rfl
    have hst := hf.terms
    unfold SameTerms at hst
    refine ⟨by unfold SameTerms; rfl, ?_, ?_, ?_, ?_⟩
    · intro f hff
      have := this.each f hff
      unfold Acceptable at *
      simpa [sameTerms_dir hf.terms, sameTerms_price hf.terms] using this
    · have := this.opened; simp only at this ⊢; rw [this, sameTerms_amount hf.terms]
    · have := this.paid; simp only at this ⊢; rw [this, sameTerms_offer hf.terms, sameTerms_dir hf.terms]
    · have := this.received; simp only at this ⊢; rw [this, sameTerms_dir hf.terms]

theorem newUser_live {o : OrderRec} (h : Explained o) : Live (newUserOrder o) := by
  unfold newUserOrder
  have hf := h.facts
  apply Verif.Props.C20_fresh_live _ _ _ _ _ h.price _ h.remaining
  · intro hd
    rw [hd]
    simp only
    rw [hf.2.2.2.1 hd]
  · cases hd : o.dir with
    | sell => exact h.opened
    | buy =>
      simp only
      refine le_min h.opened ?_
      unfold Dec.truncateInt
      refine Int.tdiv_nonneg ?_ (by decide)
      unfold Dec.quoTruncate
      refine Int.tdiv_nonneg ?_ (le_of_lt h.price)
      exact Int.mul_nonneg (Int.mul_nonneg h.remaining (by decide)) (by decide)

theorem newUser_open_le (o : OrderRec) : (newUserOrder o).amount ≤ o.openAmt ∧ (newUserOrder o).openAmt = (newUserOrder o).amount ∧
    (newUserOrder o).offer = o.remaining ∧ (newUserOrder o).dir = o.dir ∧ (newUserOrder o).price = o.price ∧
    (newUserOrder o).paid = 0 ∧ (newUserOrder o).received = 0 ∧ (newUserOrder o).kind = .user o.id o.batchId := by
  refine ⟨?_, rfl, rfl, rfl, rfl, rfl, rfl, rfl⟩
  unfold newUserOrder newBaseOrder
  simp only
  cases o.dir
  · exact min_le_left _ _
  · exact le_refl _

theorem CollectRel.filled {t : Int} {a b : OrderRec} (h : CollectRel t a b) : FilledBy [] a b := by
  rcases h with rfl | ⟨_, rfl⟩ | ⟨_, _, _, rfl⟩
  · exact FilledBy.nil rfl rfl rfl rfl
  · exact FilledBy.nil rfl rfl rfl rfl
  · exact FilledBy.nil rfl rfl rfl rfl

/-- One matching: the orders of the pair change by trades within their limits, and the new last price is positive. -/
theorem matching_trades (hw : WF s) {env : Env} {pair : Pair} (hp : pair ∈ s.pairs) (hpr : SaneParams s.params)
    (ho : ∀ o ∈ s.orders, o.pairId = pair.id → Explained o) (hl : ∀ lp, pair.lastPrice = some lp → 0 < lp)
    (hpp : ∀ pool ∈ s.pools, pool.pairId = pair.id → ∀ ap pp,
      ammPool env pool (s.bank.bal (.poolReserve pool.id) pair.quote) (s.bank.bal (.poolReserve pool.id) pair.base)
        (s.bank.supply (.pool pool.id)) = some ap → ap.price = some pp → 0 ≤ pp)
    (h : executeMatching env pair s = some s') :
    (∀ o ∈ s'.orders, o.pairId = pair.id → ∃ o0 ∈ s.orders, ∃ l, FilledBy l o0 o ∧ Explained o) ∧
    ∃ lp, s'.pairs = upsert Pair.key { pair with lastPrice := lp, batchId := pair.batchId + 1 } s.pairs ∧ ∀ x, lp = some x → 0 < x := by
  obtain ⟨pools, h1, _, _, hc⟩ := (executeMatching_flow hw hp h).cases
  have hback : ∀ o o0, o.pairId = pair.id → o0 ∈ s.orders → CollectRel s.time o0 o → ∃ o0 ∈ s.orders, ∃ l, FilledBy l o0 o ∧ Explained o := by
    intro o o0 e k1 k2
    have e0 : o0.pairId = pair.id := by rw [← e, ← k2.same.2.2.1]
    have hE := ho o0 k1 e0
    have hF := k2.filled
    refine ⟨o0, k1, [], hF, hE.next hF ?_ ?_⟩
    · rw [hF.opened]; simpa [total] using hE.opened
    · rw [hF.paid]; simpa [total] using hE.remaining
  rcases hc with ⟨_, _, _, h2, h3⟩ | ⟨out, hout, _, _, h2, h3⟩
  · refine ⟨fun o hm e => ?_, pair.lastPrice, h3, hl⟩
    obtain ⟨o0, k1, k2⟩ := h2 o hm
    exact hback o o0 e k1 k2
  · have hlive : ∀ x ∈ (bookOrders s pair.id).map newUserOrder, Live x := by
      intro x hx
      obtain ⟨o, hm, rfl⟩ := List.mem_map.1 hx
      unfold bookOrders State.ordersOf at hm
      have := List.mem_filter.1 (List.mem_filter.1 hm).1
      exact newUser_live (ho o this.1 (by simpa using this.2))
    obtain ⟨B⟩ := keeperMatch_fair hpr hlive hl (by
      intro e he pp hpe
      obtain ⟨pool, p1, p2, _, _, p5, _⟩ := h1 e he
      exact hpp pool p1 p2 _ _ p5 hpe) hout
    refine ⟨fun o hm e => ?_, some out.price, h3, fun x hx => by cases hx; exact B.price⟩
    obtain ⟨o0, k1, hk⟩ := h2 o hm e
    rcases hk with hk | ⟨r, k2, y, hy, hf⟩
    · exact hback o o0 e k1 hk
    · -- the order in the book
      obtain ⟨f1, f2, f3, f4, f5, f6⟩ := hf
      rw [B.orders] at hy
      obtain ⟨i, hi, rfl⟩ := List.mem_map.1 hy
      have hlt := List.mem_range.1 ((book_orders_nodup (heapOf ((bookOrders s pair.id).map newUserOrder ++ B.pos))
        (List.nodup_range (n := ((bookOrders s pair.id).map newUserOrder ++ B.pos).length))).2.1 i hi)
      have hst := B.fair.static i
      have hlen : i < ((bookOrders s pair.id).map newUserOrder).length := by
        by_contra hcon
        obtain ⟨e1, _, he⟩ := B.pool _ (heapOf_right (by omega) hlt)
        have := he.fresh.1
        unfold userId at f3
        rw [hst.2.2.2.2, this] at f3
        cases f3
      have hb : heapOf ((bookOrders s pair.id).map newUserOrder ++ B.pos) i = newUserOrder ((bookOrders s pair.id)[i]'(by simpa using hlen)) := by
        rw [heapOf_left hlen, List.getElem_map]
      generalize hx : (bookOrders s pair.id)[i]'(by simpa using hlen) = x at hb
      have hxm : x ∈ s.orders ∧ x.pairId = pair.id := by
        have : x ∈ bookOrders s pair.id := hx ▸ List.getElem_mem _
        unfold bookOrders State.ordersOf at this
        have := List.mem_filter.1 (List.mem_filter.1 this).1
        exact ⟨this.1, by simpa using this.2⟩
      have hxo : x = o0 := by
        refine hw.ordersS.inj hxm.1 k1 ?_
        unfold userId at f3
        rw [hst.2.2.2.2, hb, (newUser_open_le x).2.2.2.2.2.2.2] at f3
        have hs := k2.same
        unfold OrderRec.key
        rw [hxm.2, ← hs.2.2.1, ← hs.2.1, f1]
        simpa using f3
      subst hxo
      have hE := ho x k1 hxm.2
      obtain ⟨u1, u2, u3, u4, u5, u6, u7, u8⟩ := newUser_open_le x
      have hL := B.fair.live i (by rw [hb]; exact newUser_live hE)
      have hop := B.fair.opened i
      have hpd := B.fair.paid i
      have hrc := B.fair.received i
      rw [hb] at hop hpd hrc hst
      rw [u2] at hop
      rw [u6, u4] at hpd
      rw [u7, u4] at hrc
      have hcr : r.openAmt = x.openAmt ∧ r.remaining = x.remaining ∧ r.received = x.received ∧ SameTerms x r := by
        rcases k2 with rfl | ⟨_, rfl⟩ | ⟨_, _, _, rfl⟩ <;> exact ⟨rfl, rfl, rfl, rfl⟩
      have hF : FilledBy ((fillsOf B.st.log i).map (fun f => ⟨f.amt, f.price⟩)) x o := by
        refine ⟨?_, ?_, ?_, ?_, ?_⟩
        · refine sameTerms_trans hcr.2.2.2 ?_
          rw [f6]; rfl
        · intro f hff
          obtain ⟨g, hg, rfl⟩ := List.mem_map.1 hff
          unfold fillsOf at hg
          have hg' := List.mem_filter.1 hg
          have hgi : g.ptr = i := by simpa using hg'.2
          have hq := B.fair.fill_pos g hg'.1
          have hw' := B.fair.fill_limit g hg'.1
          rw [hgi, hb] at hw'
          refine ⟨hq.1, hq.2, ?_⟩
          unfold WithinLimit at hw'
          unfold Acceptable
          rw [u4, u5] at hw'
          exact hw'
        · rw [f6, total_map']
          simp only
          show r.openAmt - _ = _
          rw [hcr.1]
          unfold total
          rw [hst.2.2.1] at *
          omega
        · rw [f6, total_map']
          simp only
          show r.remaining - _ = _
          rw [hcr.2.1]
          unfold total
          omega
        · rw [f6, total_map']
          simp only
          show r.received + _ = _
          rw [hcr.2.2.1]
          unfold total
          omega
      refine ⟨x, k1, _, hF, hE.next hF ?_ ?_⟩
      · rw [f6]
        show 0 ≤ r.openAmt - _
        have := hL.open_nonneg
        rw [hcr.1, hst.2.2.1]
        omega
      · rw [f6]
        show 0 ≤ r.remaining - _
        omega

/-- What the matchings of a batch do to the orders: every order is one of before, after trades within its limits. -/
structure Trading (s0 t : State) : Prop where
  orders : ∀ o ∈ t.orders, ∃ o0 ∈ s0.orders, ∃ l, FilledBy l o0 o ∧ Explained o
  prices : ∀ p ∈ t.pairs, ∀ lp, p.lastPrice = some lp → 0 < lp

/-- What holds before each matching of a batch. -/
structure BeforeMatch (env : Env) (s t : State) (x : Pair) : Prop where
  wf : WF t
  now : x ∈ t.pairs
  pair : x ∈ s.pairs
  params : SaneParams t.params
  orders : ∀ o ∈ t.orders, o.pairId = x.id → Explained o
  price : ∀ lp, x.lastPrice = some lp → 0 < lp
  pools : ∀ pool ∈ t.pools, pool.pairId = x.id → ∀ ap pp,
      ammPool env pool (t.bank.bal (.poolReserve pool.id) x.quote) (t.bank.bal (.poolReserve pool.id) x.base)
        (t.bank.supply (.pool pool.id)) = some ap → ap.price = some pp → 0 ≤ pp

theorem batch_trading_inv (R : State → Prop) (hw : WF s) {env : Env} (hs : SaneState env s) (ho : ∀ o ∈ s.orders, Explained o)
    (hl : ∀ p ∈ s.pairs, ∀ lp, p.lastPrice = some lp → 0 < lp) (h : forEach (executeMatching env) s.pairs s = some s')
    (hR : ∀ x t t', BeforeMatch env s t x → executeMatching env x t = some t' → R t → R t') (hR0 : R s) : Trading s s' ∧ R s' := by
  have key : ∀ (xs : List Pair) (t : State), Matching s xs t → (∀ q, (∃ x ∈ xs, x.id = q.pairId) → (q ∈ t.pools ↔ q ∈ s.pools)) →
      t.bank.supply = s.bank.supply → (∀ q ∈ s.pools, (∃ x ∈ xs, x.id = q.pairId) → ∀ d,
      t.bank.bal (.poolReserve q.id) d = s.bank.bal (.poolReserve q.id) d) → Trading s t → R t → forEach (executeMatching env) xs t = some s' →
      Trading s s' ∧ R s' := by
    intro xs
    induction xs with
    | nil => intro t _ _ _ _ ht hr e; cases e; exact ⟨ht, hr⟩
    | cons x xs ih =>
      intro t ht hpl hsup hres htr hrt e
      simp only [forEach, Option.bind_eq_some_iff] at e
      obtain ⟨t', e1, e2⟩ := e
      have hx := ht.pending x (by simp)
      have hnd := (List.nodup_cons.1 ht.nodup)
      have hne : ∀ y ∈ xs, y.id ≠ x.id := fun y hy e2 => hnd.1 (ht.wf.key_pair (ht.pending y (by simp [hy])).1 hx.1 e2 ▸ hy)
      have hm := executeMatching_spec ht.wf hx.1 e1
      have hB : BeforeMatch env s t x := ⟨ht.wf, hx.1, hx.2, by rw [ht.params]; exact hs.params,
        fun o h1 _ => by obtain ⟨_, _, _, _, h2⟩ := htr.orders o h1; exact h2, htr.prices x hx.1, by
          intro pool p1 p2 ap pp p3 p4
          have hps := (hpl pool ⟨x, by simp, p2.symm⟩).1 p1
          rw [hres pool hps ⟨x, by simp, p2.symm⟩, hres pool hps ⟨x, by simp, p2.symm⟩, hsup] at p3
          exact hs.prices pool hps x hx.2 p2.symm ap pp p3 p4⟩
      obtain ⟨m1, lp, m2, m3⟩ := matching_trades ht.wf hx.1 (env := env) hB.params hB.orders hB.price hB.pools e1
      refine ih t' (matching_step ht e1) ?_ ?_ ?_ ⟨?_, ?_⟩ (hR x t t' hB e1 hrt) e2
      · rintro q ⟨y, hy, hq⟩
        rw [executeMatching_pools_others ht.wf e1 (by rw [← hq]; exact hne y hy), hpl q ⟨y, by simp [hy], hq⟩]
      · rw [rel_executeMatching supply_rel e1, hsup]
      · rintro q hqs ⟨y, hy, hq⟩ d
        rw [executeMatching_reserve_others ht.wf hx.1 e1 ((hpl q ⟨y, by simp [hy], hq⟩).2 hqs) (by rw [← hq]; exact hne y hy)
          (by rw [ht.params]; exact hs.dust _), hres q hqs ⟨y, by simp [hy], hq⟩]
      · intro o hot
        by_cases hp : o.pairId = x.id
        · obtain ⟨o1, h1, l, h2, h3⟩ := m1 o hot hp
          obtain ⟨o0, h4, l0, h5, _⟩ := htr.orders o1 h1
          exact ⟨o0, h4, _, h5.trans h2, h3⟩
        · exact htr.orders o ((hm.others o hp).1 hot)
      · intro p hp
        rw [m2] at hp
        rcases (ht.wf.mem_setPair (p' := { x with lastPrice := lp, batchId := x.batchId + 1 }) hx.1 (by rfl)).1 hp with rfl | hp
        · exact m3
        · exact htr.prices p hp.1
  refine key _ _ (matching_init hw) (fun _ _ => Iff.rfl) rfl (fun _ _ _ _ => rfl) ⟨?_, hl⟩ hR0 h
  intro o hm
  exact ⟨o, hm, [], FilledBy.nil rfl rfl rfl rfl, ho o hm⟩

theorem batch_trading (hw : WF s) {env : Env} (hs : SaneState env s) (ho : ∀ o ∈ s.orders, Explained o)
    (hl : ∀ p ∈ s.pairs, ∀ lp, p.lastPrice = some lp → 0 < lp) (h : forEach (executeMatching env) s.pairs s = some s') :
    Trading s s' := (batch_trading_inv (fun _ => True) hw hs ho hl h (fun _ _ _ _ _ _ => trivial) trivial).1

theorem endBlock_trading (hw : WF s) {env : Env} (hs : SaneState env s) (ho : ∀ o ∈ s.orders, Explained o)
    (hl : ∀ p ∈ s.pairs, ∀ lp, p.lastPrice = some lp → 0 < lp) (h : endBlock env s = some s') : Trading s s' := by
  unfold endBlock at h
  split at h
  · cases h
  · split at h
    · unfold executeRequests at h
      split at h
      · cases h
      · rename_i s1 h1
        have m1 := matching_all hw h1
        have T := batch_trading hw hs ho hl h1
        split at h
        · cases h
        · rename_i s2 h2
          have m2 := expire_all m1.wf h2
          split at h
          · cases h
          · rename_i s3 h3
            have m3 := deposit_all m2.wf h3
            have m4 := withdraw_all m3.wf h
            refine ⟨?_, ?_⟩
            · rw [m4.orders, m3.orders]
              intro o hot
              obtain ⟨o1, b1, b2⟩ := m2.back o hot
              obtain ⟨o0, c1, l, c2, c3⟩ := T.orders o1 b1
              rcases b2 with rfl | ⟨_, rfl, _⟩
              · exact ⟨o0, c1, l, c2, c3⟩
              · have hF : FilledBy [] o1 { o1 with status := .expired } := FilledBy.nil rfl rfl rfl rfl
                exact ⟨o0, c1, _, c2.trans hF, c3.next hF c3.opened c3.remaining⟩
            · rw [m4.frame.pairs, m3.frame.pairs, m2.frame.pairs]
              exact T.prices
    · cases h
      exact ⟨fun o hm => ⟨o, hm, [], FilledBy.nil rfl rfl rfl rfl, ho o hm⟩, hl⟩

/-- The invariant of sane chains. -/
structure Sane (env : Env) (s : State) : Prop where
  reach : Reachable env s
  orders : ∀ o ∈ s.orders, Explained o
  prices : ∀ p ∈ s.pairs, ∀ lp, p.lastPrice = some lp → 0 < lp

theorem effect_explained {env : Env} {op : Op} (h : Effect env s s' op) (ho : ∀ o ∈ s.orders, Explained o) :
    ∀ o ∈ s'.orders, Explained o := by
  cases h with
  | same _ h => rw [h]; exact ho
  | pair m b hb h => rw [h]; exact ho
  | pool m pr cs mt h => rw [h.rest.2.2.2.2.2.1]; exact ho
  | ranged m pr cs mt h => rw [h.rest.2.2.2.2.2.1]; exact ho
  | deposit m p r h => rw [h.rest.2.2.2.2.2.1]; exact ho
  | withdraw m p r h => rw [h.rest.2.2.2.2.2.1]; exact ho
  | order _ hop p o h hpos =>
    intro x hx
    rcases (h.orders x).1 hx with hx | rfl
    · exact ho x hx
    · have h100 : minCoinAmount = 100 := rfl
      have hoff : 0 ≤ x.offer := by
        have := h.offer.1
        unfold NeededOffer at this
        cases hd : x.dir with
        | sell => rw [hd] at this; simp only at this; omega
        | buy =>
          rw [hd] at this; simp only at this
          have : 0 < x.price * x.amount := Int.mul_pos hpos.2.1 (by omega)
          omega
      refine ⟨hpos.2.1, by omega, h.offer.1, by rw [h.fresh.2.1]; omega, by rw [h.offer.2]; exact hoff, [], ?_⟩
      exact FilledBy.nil rfl h.fresh.2.1 h.offer.2 h.fresh.2.2.1
  | cancel _ hop hf hs ho' hl =>
    intro x hx
    rcases ho' x hx with hx | ⟨o, h1, _, rfl⟩
    · exact ho x hx
    · exact (ho o h1).next (l := []) (FilledBy.nil rfl rfl rfl rfl) (ho o h1).opened (ho o h1).remaining
  | transfer src dst cs b hb h => rw [h]; exact ho
  | params p hv h => rw [h]; exact ho

theorem sane_of_chain {env : Env} (h : SaneChain env s) : Sane env s := by
  induction h with
  | @genesis s h =>
    refine ⟨⟨_, [], h, rfl⟩, ?_, ?_⟩
    · rw [h.orders]; simp
    · rw [h.pairs]; simp
  | @step s s' _ op hs e ih =>
    have hw := ih.reach.wf
    have hr : Reachable env s' := ih.reach.run (ops := [op]) (by simp [Dex.run, e])
    by_cases h1 : ∃ a b, op = .beginBlock a b
    · obtain ⟨a, b, rfl⟩ := h1
      cases e
      exact ⟨hr, fun o ho => ih.orders o (List.mem_filter.1 ho).1, ih.prices⟩
    · by_cases h2 : op = .endBlock
      · subst h2
        have T := endBlock_trading hw (hs rfl) ih.orders ih.prices e
        exact ⟨hr, fun o ho => by obtain ⟨_, _, _, _, h⟩ := T.orders o ho; exact h, T.prices⟩
      · have hE := step_effect hw (by push Not at h1; exact h1) h2 e
        refine ⟨hr, effect_explained hE ih.orders, ?_⟩
        intro p hp lp hlp
        rcases (effect_pairs hw hr.wf hE).2 p hp with ⟨q, hq, e2⟩ | e2
        · exact ih.prices q hq lp (by rw [e2] at hlp; exact hlp)
        · rw [e2] at hlp; cases hlp

end Verif.Dex

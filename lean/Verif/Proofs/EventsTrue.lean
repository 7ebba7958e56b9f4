import Verif.Proofs.EventsRepeat
import Verif.Proofs.PoolTrade
import Verif.Proofs.BatchPrefix
/-! # The matches told by the events are trades within the limits -/
namespace Verif.Dex
open Verif Verif.Amm Verif.Spec

variable {env : Env} {s s' : State}

theorem _root_.Verif.Spec.TradedAs.add {dir : Dir} {ok : Int → Prop} {m p r m' p' r' : Int} (h : TradedAs dir ok m p r)
    (h' : TradedAs dir ok m' p' r') : TradedAs dir ok (m + m') (p + p') (r + r') := by
  obtain ⟨l, h1, h2, h3, h4, h5⟩ := h
  obtain ⟨l', h1', h2', h3', h4', h5'⟩ := h'
  refine ⟨l ++ l', by simp [h1], ?_, ?_, ?_, ?_⟩
  · intro f hf
    rcases List.mem_append.1 hf with hf | hf
    · exact h2 f hf
    · exact h2' f hf
  · rw [total_append', h3, h3']
  · rw [total_append', h4, h4']
  · rw [total_append', h5, h5']

/-- A matched order of the book, as trades. -/
theorem book_truth {os : List Order} {pools : List (Nat × Pool)} {out : MatchOut} (B : MatchedBook env.sqrt os pools out)
    (hf : ∀ x ∈ os, x.openAmt = x.amount ∧ x.paid = 0 ∧ x.received = 0) {y : Order} (hy : y ∈ out.orders) (hm : y.isMatched = true) :
    (TradedAs y.dir (fun q => WithinLimit y q) (y.amount - y.openAmt) y.paid y.received) ∧
    ((∃ x ∈ os, y.kind = x.kind ∧ y.dir = x.dir ∧ y.price = x.price) ∨ ∃ e ∈ pools, y.kind = .pool e.1) := by
  rw [B.orders] at hy
  obtain ⟨i, hi, rfl⟩ := List.mem_map.1 hy
  have hlt := List.mem_range.1 ((book_orders_nodup (heapOf (os ++ B.pos)) (List.nodup_range (n := (os ++ B.pos).length))).2.1 i hi)
  have hst := B.fair.static i
  have hop := B.fair.opened i
  have hpd := B.fair.paid i
  have hrc := B.fair.received i
  have hcase : ((heapOf (os ++ B.pos) i).openAmt = (heapOf (os ++ B.pos) i).amount ∧ (heapOf (os ++ B.pos) i).paid = 0 ∧
      (heapOf (os ++ B.pos) i).received = 0) ∧ ((∃ x ∈ os, (B.st.heap i).kind = x.kind ∧ (B.st.heap i).dir = x.dir ∧
      (B.st.heap i).price = x.price) ∨ ∃ e ∈ pools, (B.st.heap i).kind = .pool e.1) := by
    by_cases hl : i < os.length
    · have hb := heapOf_left (os := os) (pos := B.pos) hl
      refine ⟨by rw [hb]; exact hf _ (List.getElem_mem _), Or.inl ⟨os[i], List.getElem_mem _, ?_, ?_, ?_⟩⟩
      · rw [hst.2.2.2.2, hb]
      · rw [hst.1, hb]
      · rw [hst.2.1, hb]
    · obtain ⟨e, he, hpo⟩ := B.pool _ (heapOf_right (by omega) hlt)
      exact ⟨hpo.fresh.2, Or.inr ⟨e, he, by rw [hst.2.2.2.2]; exact hpo.fresh.1⟩⟩
  obtain ⟨⟨f1, f2, f3⟩, hsrc⟩ := hcase
  refine ⟨⟨(fillsOf B.st.log i).map (fun f => ⟨f.amt, f.price⟩), ?_, ?_, ?_, ?_, ?_⟩, hsrc⟩
  · intro hnil
    have hnil : fillsOf B.st.log i = [] := by simpa using hnil
    rw [hnil] at hop
    unfold Order.isMatched at hm
    rw [hop, f1, hst.2.2.1] at hm
    simp at hm
  · intro f hff
    obtain ⟨g, hg, rfl⟩ := List.mem_map.1 hff
    unfold fillsOf at hg
    have hg' := List.mem_filter.1 hg
    have hgi : g.ptr = i := by simpa using hg'.2
    have hq := B.fair.fill_pos g hg'.1
    have hw' := B.fair.fill_limit g hg'.1
    rw [hgi] at hw'
    refine ⟨hq.1, hq.2, ?_⟩
    unfold WithinLimit at hw' ⊢
    rw [hst.1, hst.2.1]
    exact hw'
  · rw [hst.2.2.1, hop, f1]
    unfold total
    rw [List.map_map]
    simp [Function.comp_def]
  · rw [hpd, f2, hst.1, Int.zero_add]
    unfold total
    rw [List.map_map]
    rfl
  · rw [hrc, f3, hst.1, Int.zero_add]
    unfold total
    rw [List.map_map]
    rfl

theorem mem_addPoolMatch {id : Nat} {o : Order} : ∀ {rs : List PoolMatch} {r : PoolMatch}, r ∈ addPoolMatch id o rs →
    r ∈ rs ∨ (r = ⟨id, o.dir, o.paid, o.received, o.amount - o.openAmt⟩ ∧ ∀ x ∈ rs, x.poolId ≠ id) ∨
      ∃ r0, rs.find? (fun r => r.poolId == id) = some r0 ∧
        r = { r0 with paid := r0.paid + o.paid, received := r0.received + o.received, matched := r0.matched + (o.amount - o.openAmt) }
  | [], r, h => by
    unfold addPoolMatch at h
    exact Or.inr (Or.inl ⟨by simpa using h, by simp⟩)
  | x :: xs, r, h => by
    unfold addPoolMatch at h
    by_cases hx : x.poolId = id
    · rw [if_pos hx] at h
      rcases List.mem_cons.1 h with h | h
      · exact Or.inr (Or.inr ⟨x, by simp [hx], h⟩)
      · exact Or.inl (by simp [h])
    · rw [if_neg hx] at h
      have hb : (x.poolId == id) = false := by simpa using hx
      rcases List.mem_cons.1 h with h | h
      · exact Or.inl (by simp [h])
      · rcases mem_addPoolMatch h with h | ⟨h1, h2⟩ | ⟨r0, h1, h2⟩
        · exact Or.inl (by simp [h])
        · refine Or.inr (Or.inl ⟨h1, ?_⟩)
          intro y hy
          rcases List.mem_cons.1 hy with rfl | hy
          · exact hx
          · exact h2 y hy
        · exact Or.inr (Or.inr ⟨r0, by rw [List.find?_cons, hb]; exact h1, h2⟩)

theorem applyOrder_dirs {pair : Pair} {x : Order} {st st' : ApplyState} (e : applyOrder pair x st = some st') :
    (x.isMatched = false ∨ (∃ a b, x.kind = .user a b) → st'.dirs = st.dirs) ∧
    ∀ id, x.kind = .pool id → x.isMatched = true →
      (st.dirs.find? (fun d => d.1 == id) = none ∧ st'.dirs = st.dirs ++ [(id, x.dir)]) ∨
      (∃ d, st.dirs.find? (fun d => d.1 == id) = some d ∧ d.2 = x.dir ∧ st'.dirs = st.dirs) := by
  unfold applyOrder at e
  by_cases hm : x.isMatched = false
  · rw [if_pos hm] at e
    cases e
    exact ⟨fun _ => rfl, fun id _ h => by rw [hm] at h; cases h⟩
  · rw [if_neg hm] at e
    simp only at e
    cases hk : x.kind with
    | user a b =>
      rw [hk] at e
      simp only at e
      refine ⟨fun _ => ?_, fun id h => by cases h⟩
      split at e
      · cases e
      · split at e
        · cases e
        · split at e
          · cases e
          · have e := Option.some.inj e
            subst e; rfl
    | pool id =>
      rw [hk] at e
      simp only at e
      refine ⟨fun h => ?_, ?_⟩
      · rcases h with h | ⟨_, _, h⟩
        · exact absurd h hm
        · cases h
      · intro id' h _
        cases h
        cases hf : st.dirs.find? (fun d => d.1 == id) with
        | none =>
          rw [hf] at e
          have e := Option.some.inj e
          subst e
          exact Or.inl ⟨rfl, rfl⟩
        | some d =>
          rw [hf] at e
          simp only at e
          split at e
          · cases e
          · rename_i hd
            have e := Option.some.inj e
            subst e
            exact Or.inr ⟨d, rfl, by simpa using hd, rfl⟩

/-- What a pool result stands for. -/
def ResultTrue (K : Nat → Prop) (r : PoolMatch) : Prop := K r.poolId ∧ TradedAs r.dir (fun _ => True) r.matched r.paid r.received

theorem poolMatches_true {pair : Pair} {K : Nat → Prop} : ∀ (os : List Order) (st st' : ApplyState) (rs : List PoolMatch),
    (∀ y ∈ os, y.isMatched = true → ∀ id, y.kind = .pool id → K id ∧ TradedAs y.dir (fun _ => True) (y.amount - y.openAmt) y.paid y.received) →
    rs.map (fun r => (r.poolId, r.dir)) = st.dirs → (∀ r ∈ rs, ResultTrue K r) → forEach (applyOrder pair) os st = some st' →
    ∀ r ∈ poolMatches os rs, ResultTrue K r
  | [], _, _, rs, _, _, h, _ => by unfold poolMatches; exact h
  | x :: xs, st, st', rs, hy, hr, h, e => by
    simp only [forEach, Option.bind_eq_some_iff] at e
    obtain ⟨st1, e1, e2⟩ := e
    obtain ⟨d1, d2⟩ := applyOrder_dirs e1
    unfold poolMatches
    have hy' := fun y (h : y ∈ xs) => hy y (by simp [h])
    cases hk : x.kind with
    | user a b => exact poolMatches_true xs st1 st' rs hy' (by rw [d1 (Or.inr ⟨a, b, hk⟩)]; exact hr) h e2
    | pool id =>
      simp only
      cases hm : x.isMatched with
      | false => exact poolMatches_true xs st1 st' rs hy' (by rw [d1 (Or.inl hm)]; exact hr) h e2
      | true =>
        rw [if_pos rfl]
        obtain ⟨k1, k2⟩ := hy x (by simp) hm id hk
        have hfind : st.dirs.find? (fun p => p.1 == id) = (rs.find? (fun r => r.poolId == id)).map (fun r => (r.poolId, r.dir)) := by
          rw [← hr, List.find?_map]; rfl
        rcases d2 id hk hm with ⟨f1, f2⟩ | ⟨dd, f1, f2, f3⟩
        · rw [hfind] at f1
          have f1 : rs.find? (fun r => r.poolId == id) = none := by simpa using f1
          have hne : ∀ r ∈ rs, r.poolId ≠ id := by
            intro r hr
            simpa using List.find?_eq_none.1 f1 r hr
          refine poolMatches_true xs st1 st' _ hy' (by rw [addPoolMatch_new hne, f2, List.map_append, hr]; rfl) ?_ e2
          intro r hr'
          rcases mem_addPoolMatch hr' with c | ⟨rfl, _⟩ | ⟨r0, c, _⟩
          · exact h r c
          · exact ⟨k1, k2⟩
          · rw [f1] at c; cases c
        · rw [hfind] at f1
          rw [Option.map_eq_some_iff] at f1
          obtain ⟨r0, g1, rfl⟩ := f1
          have hdir : r0.dir = x.dir := f2
          refine poolMatches_true xs st1 st' _ hy' (by rw [(addPoolMatch_old (pair := pair) (a := .globalEscrow) (d := .native 0) g1 hdir).1, f3]; exact hr) ?_ e2
          intro r hr'
          rcases mem_addPoolMatch hr' with c | ⟨_, c⟩ | ⟨r1, c, rfl⟩
          · exact h r c
          · exact absurd (by simpa using List.find?_some g1) (c r0 (List.mem_of_find?_eq_some g1))
          · rw [g1] at c
            cases c
            obtain ⟨q1, q2⟩ := h r0 (List.mem_of_find?_eq_some g1)
            refine ⟨q1, ?_⟩
            simp only
            rw [hdir] at q2 ⊢
            exact q2.add k2

theorem eachEv_mem {α σ : Type} {f : α → σ → Option σ} {ev : α → σ → List Event} : ∀ {l : List α} {s : σ} {e : Event},
    e ∈ eachEv f ev l s → ∃ x ∈ l, ∃ t, e ∈ ev x t
  | [], s, e, h => by simp [eachEv] at h
  | x :: xs, s, e, h => by
    unfold eachEv at h
    split at h
    · simp at h
    · rcases List.mem_append.1 h with h | h
      · exact ⟨x, by simp, s, h⟩
      · obtain ⟨y, hy, t, ht⟩ := eachEv_mem h
        exact ⟨y, by simp [hy], t, ht⟩

theorem true_finish {o : OrderRec} {st : OStatus} : ∀ e ∈ finishOrderEv o st, MatchTrue s e := by
  intro e he
  unfold finishOrderEv at he
  split at he
  · simp at he
  · simp only [List.mem_singleton] at he; subst he; exact trivial

theorem true_matching {t t' : State} {x : Pair} (hB : BeforeMatch env s t x) (ho : ∀ o ∈ t.orders, o.pairId = x.id → o ∈ s.orders)
    (hp : ∀ q ∈ t.pools, q.pairId = x.id → q ∈ s.pools) (h : executeMatching env x t = some t') :
    ∀ e ∈ executeMatchingEv env x t, MatchTrue s e := by
  unfold executeMatching at h
  unfold executeMatchingEv
  split at h
  · cases h
  · rename_i s1 os hc
    rw [hc]
    simp only
    have hC := collect_all hB.wf x.id hc
    have hO : os = (bookOrders t x.id).map newUserOrder := by
      have := collect_list _ _ _ _ hc
      rw [List.nil_append] at this
      exact this
    have hR := fun id d => collect_reserve hB.wf x.id hc id d
    have hbook : ∀ o ∈ bookOrders t x.id, o ∈ t.orders ∧ o.pairId = x.id := by
      intro o hm
      unfold bookOrders State.ordersOf at hm
      have := List.mem_filter.1 (List.mem_filter.1 hm).1
      exact ⟨this.1, by simpa using this.2⟩
    intro e he
    rcases List.mem_append.1 he with he | he
    · obtain ⟨o, _, st, ht⟩ := eachEv_mem he
      unfold collectOrderEv at ht
      split at ht
      · exact true_finish e ht
      · simp at ht
    split at h
    · cases h
    · rename_i s2 pools hpl
      rw [hpl] at he
      simp only at he
      have hP := collectPool_all hC.wf hpl
      have hprm : s2.params = t.params := hP.params.trans hC.frame.params
      split at h
      · cases h
      · rename_i hk
        rw [hk] at he
        simp at he
      · rename_i out hout
        rw [hout] at he
        simp only at he
        split at h
        · cases h
        · rename_i s3 h3
          clear h
          have hpools : ∀ e ∈ pools, ∃ pool ∈ t.pools, pool.pairId = x.id ∧ e.1 = pool.id ∧
              ammPool env pool (t.bank.bal (.poolReserve pool.id) x.quote) (t.bank.bal (.poolReserve pool.id) x.base)
                (t.bank.supply (.pool pool.id)) = some e.2 := by
            intro e he
            obtain ⟨pool, p1, p2, p3, p4, p5, p6, p7⟩ := hP.src e he
            rw [hC.frame.pools] at p7
            have q1 := hR pool.id x.quote
            have q2 := hR pool.id x.base
            simp only at q1 q2 p5
            rw [q1.1, q2.1, q1.2] at p5
            exact ⟨pool, p7, p2, p4, p5⟩
          rw [hprm, hO] at hout
          obtain ⟨B⟩ := keeperMatch_fair hB.params (by
              intro y hy
              obtain ⟨o, hm, rfl⟩ := List.mem_map.1 hy
              exact newUser_live (hB.orders o (hbook o hm).1 (hbook o hm).2)) hB.price (by
              intro e he pp hpe
              obtain ⟨pool, p1, p2, _, p5⟩ := hpools e he
              exact hB.pools pool p1 p2 _ _ p5 hpe) hout
          have htruth := fun y hy hm => book_truth B (by
              intro z hz
              obtain ⟨o, _, rfl⟩ := List.mem_map.1 hz
              obtain ⟨u1, u2, u3, u4, u5, u6, u7, u8⟩ := newUser_open_le o
              exact ⟨u2, u6, u7⟩) (y := y) hy hm
          unfold applyMatchResult at h3
          unfold applyMatchEv at he
          split at h3
          · cases h3
          · rename_i b hb
            rw [hb] at he
            simp only at he
            split at h3
            · cases h3
            · rename_i st hst
              clear h3
              rcases List.mem_append.1 he with he | he
              · obtain ⟨y, hy, st, ht⟩ := eachEv_mem he
                unfold applyOrderEv at ht
                by_cases hm : y.isMatched = false
                · rw [if_pos hm] at ht; simp at ht
                · rw [if_neg hm] at ht
                  have hm : y.isMatched = true := by simpa using hm
                  obtain ⟨w1, w2⟩ := htruth y hy hm
                  cases hk : y.kind with
                  | pool id => rw [hk] at ht; simp at ht
                  | user oid bb =>
                    rw [hk] at ht
                    simp only at ht
                    split at ht
                    · simp at ht
                    · rename_i rec hrec
                      rcases List.mem_append.1 ht with ht | ht
                      · split at ht
                        · exact true_finish e ht
                        · simp at ht
                      · simp only [List.mem_singleton] at ht
                        subst ht
                        rcases w2 with ⟨z, hz, v1, v2, v3⟩ | ⟨e, _, v⟩
                        · obtain ⟨o, hm2, rfl⟩ := List.mem_map.1 hz
                          obtain ⟨u1, u2, u3, u4, u5, u6, u7, u8⟩ := newUser_open_le o
                          rw [hk, u8] at v1
                          simp only [OKind.user.injEq] at v1
                          refine ⟨o, ho o (hbook o hm2).1 (hbook o hm2).2, (hbook o hm2).2, v1.1.symm, by rw [v2, u4], ?_⟩
                          have hac : (fun q => WithinLimit y q) = Acceptable o := by
                            funext q
                            unfold WithinLimit Acceptable
                            rw [v2, v3, u4, u5]
                            cases o.dir <;> rfl
                          rw [hac] at w1
                          exact w1
                        · rw [hk] at v; cases v
              · obtain ⟨r, hr, rfl⟩ := List.mem_map.1 he
                obtain ⟨q1, q2⟩ := poolMatches_true (K := fun id => ∃ q ∈ s.pools, q.id = id ∧ q.pairId = x.id) _ _ _ [] (by
                  intro y hy hm id hk
                  obtain ⟨w1, w2⟩ := htruth y hy hm
                  refine ⟨?_, ?_⟩
                  · rcases w2 with ⟨z, hz, v1, _⟩ | ⟨e, he', v⟩
                    · obtain ⟨o, _, rfl⟩ := List.mem_map.1 hz
                      rw [hk, (newUser_open_le o).2.2.2.2.2.2.2] at v1; cases v1
                    · obtain ⟨pool, p1, p2, p3, _⟩ := hpools e he'
                      rw [hk] at v
                      injection v with v
                      exact ⟨pool, hp pool p1 p2, by rw [v, p3], p2⟩
                  · obtain ⟨l, l1, l2, l3⟩ := w1
                    exact ⟨l, l1, fun f hf => ⟨(l2 f hf).1, (l2 f hf).2.1, trivial⟩, l3⟩) rfl (by simp) hst r hr
                exact ⟨q1, q2⟩

theorem true_matchingPass (hw : WF s) (hs : SaneState env s) (ho : ∀ o ∈ s.orders, Explained o)
    (hl : ∀ p ∈ s.pairs, ∀ lp, p.lastPrice = some lp → 0 < lp) (e : forEach (executeMatching env) s.pairs s = some s') :
    ∀ e ∈ eachEv (executeMatching env) (executeMatchingEv env) s.pairs s, MatchTrue s e := by
  have := (eachEv_inv (f := executeMatching env) (ev := executeMatchingEv env) (fun xs t log => Matching s xs t ∧
      (∃ pre, s.pairs = pre ++ xs ∧ forEach (executeMatching env) pre s = some t) ∧
      (∀ o ∈ t.orders, (∃ y ∈ xs, y.id = o.pairId) → o ∈ s.orders) ∧ (∀ q ∈ t.pools, (∃ y ∈ xs, y.id = q.pairId) → q ∈ s.pools) ∧
      ∀ e ∈ log, MatchTrue s e)
    (fun x xs t t' log ⟨h1, ⟨pre, h2, h3⟩, h4, h5, h6⟩ e => by
      have hB := before_match hw hs ho hl h2 h3
      have hx := h1.pending x (by simp)
      have hnd := (List.nodup_cons.1 h1.nodup)
      have hne : ∀ y ∈ xs, y.id ≠ x.id := fun y hy e2 => hnd.1 (h1.wf.key_pair (h1.pending y (by simp [hy])).1 hx.1 e2 ▸ hy)
      refine ⟨matching_step h1 e, ⟨pre ++ [x], by simp [h2], ?_⟩, ?_, ?_, ?_⟩
      · rw [forEach_append, h3]
        simp [forEach, e]
      · rintro o hot ⟨y, hy, hid⟩
        have hm := executeMatching_spec h1.wf hx.1 e
        exact h4 o ((hm.others o (by rw [← hid]; exact hne y hy)).1 hot) ⟨y, by simp [hy], hid⟩
      · rintro q hqt ⟨y, hy, hid⟩
        exact h5 q ((executeMatching_pools_others h1.wf e (by rw [← hid]; exact hne y hy)).1 hqt) ⟨y, by simp [hy], hid⟩
      · intro ev hev
        rcases List.mem_append.1 hev with hev | hev
        · exact h6 ev hev
        · exact true_matching hB (fun o h7 h8 => h4 o h7 ⟨x, by simp, h8.symm⟩) (fun q h7 h8 => h5 q h7 ⟨x, by simp, h8.symm⟩) e ev hev)
    _ _ _ [] ⟨matching_init hw, ⟨[], rfl, rfl⟩, fun o h _ => h, fun q h _ => h, by simp⟩ e).2.2.2.2
  rwa [List.nil_append] at this

theorem step_true {op : Op} (hc : Sane env s) (hs : op = .endBlock → SaneState env s) (h : step env op s = some s') :
    ∀ e ∈ stepEv env op s, MatchTrue s e := by
  intro e he
  by_cases hop : op = .endBlock
  · subst hop
    have hs := hs rfl
    simp only [step, endBlock] at h
    simp only [stepEv, endBlockEv] at he
    split at h
    · cases h
    · rename_i c1
      rw [if_neg c1] at he
      split at h
      · rename_i c2
        rw [if_pos c2] at he
        unfold executeRequests at h
        unfold executeRequestsEv at he
        split at h
        · cases h
        · rename_i s1 h1
          rw [h1] at he
          simp only at he
          split at he
          · simp at he
          · split at he
            · simp at he
            · simp only [List.mem_append] at he
              rcases he with ((he | he) | he) | he
              · exact true_matchingPass hc.reach.wf hs hc.orders hc.prices h1 e he
              · obtain ⟨o, _, t, ht⟩ := eachEv_mem he
                unfold expireOrderEv at ht
                split at ht
                · exact true_finish e ht
                · split at ht
                  · exact true_finish e ht
                  · simp at ht
              · obtain ⟨o, _, t, ht⟩ := eachEv_mem he
                have := topic_deposit e ht
                cases e <;> simp [Event.topic] at this <;> exact trivial
              · obtain ⟨o, _, t, ht⟩ := eachEv_mem he
                have := topic_withdraw e ht
                cases e <;> simp [Event.topic] at this <;> exact trivial
      · rename_i c2
        rw [if_neg c2] at he
        simp at he
  · have := step_repeats hc.reach.wf e he
    cases e <;> first | exact trivial | exact absurd this hop

end Verif.Dex

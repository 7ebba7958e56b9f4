import Verif.Proofs.Uncross
import Verif.Props.Match
import Verif.Props.View
/-! # What a matching leaves behind (C65) -/
namespace Verif.Props
open Verif Verif.Amm Verif.Spec

/-- **C65** After `Match` no two orders that could still trade with each other are left: when the last price and the sell
limits are at least one, every buy and every sell that still have something matchable at their own limits do not cross. -/
theorem C65_nothing_crossed (h : Heap) (ps : List Nat) (last : Int) (hlast : Dec.one ≤ last) (hnd : ps.Nodup)
    (hl : ∀ p ∈ ps, Live (h p)) (hone : ∀ p ∈ ps, (h p).dir = .sell → Dec.one ≤ (h p).price) (r : MatchResult)
    (hr : obMatch h (newOrderBook h ps) last = some r) (p q : Nat) (hp : p ∈ ps) (hq : q ∈ ps)
    (hb : (h p).dir = .buy) (hs : (h q).dir = .sell)
    (mp : 0 < matchableAmount (r.st.heap p) (h p).price) (mq : 0 < matchableAmount (r.st.heap q) (h q).price) :
    (h p).price < (h q).price := by
  obtain ⟨sb, ss⟩ := book_sides hnd hl
  have hk := bookOk_new h ps
  have hpos : 0 < last := lt_of_lt_of_le Verif.Amm.one_pos hlast
  have hu : Uncrossed r.st.heap (newOrderBook h ps).buys (newOrderBook h ps).sells := by
    unfold obMatch at hr
    by_cases h0 : (newOrderBook h ps).buys.length = 0 ∨ (newOrderBook h ps).sells.length = 0
    · intro x hx y hy
      rcases h0 with h0 | h0
      · rw [List.length_eq_zero_iff.1 h0] at hx; simp at hx
      · rw [List.length_eq_zero_iff.1 h0] at hy; simp at hy
    · rw [if_neg h0] at hr
      simp only at hr
      cases e : matchAtSinglePrice h (newOrderBook h ps) last with
      | none => rw [e] at hr; cases hr
      | some x =>
        obtain ⟨st, m⟩ := x
        rw [e] at hr
        simp only at hr
        by_cases hd : priceDirection h (newOrderBook h ps) last = .staying
        · rw [if_pos hd] at hr
          simp only [Option.some.injEq] at hr
          rw [← hr]
          have eB : ∀ x, ticksTotal h (buildSide false (newOrderBook h ps).buys x) x = _ + _ :=
            fun x => by rw [buys_split hk.buys.sorted x, ticksTotal_append]
          have eS : ∀ x, ticksTotal h (buildSide true (newOrderBook h ps).sells x) x = _ + _ :=
            fun x => by rw [sells_split hk.sells.sorted x, ticksTotal_append]
          unfold priceDirection at hd
          rw [buyOverAt_eq 0 hk.buys.sorted, sellUnderAt_eq 0 hk.sells.sorted] at hd
          simp only at hd
          refine single_uncrossed hlast sb ss hk.buys.sorted hk.sells.sorted ?_ ?_ e
          · rw [eS last]
            by_contra hc
            rw [if_pos (by omega)] at hd
            cases hd
          · rw [eB last]
            by_contra hc
            by_cases h2 : 0 + ticksTotal h ((newOrderBook h ps).buys.filter (fun t => decide (last < t.price))) last >
                ticksTotal h ((newOrderBook h ps).sells.filter (fun t => decide (t.price = last))) last +
                  (0 + ticksTotal h ((newOrderBook h ps).sells.filter (fun t => decide (t.price < last))) last)
            · rw [if_pos h2] at hd; cases hd
            · rw [if_neg h2, if_pos (by omega)] at hd
              cases hd
        · rw [if_neg hd] at hr
          cases e2 : matchLoop (priceDirection h (newOrderBook h ps) last)
              ((newOrderBook h ps).buys.length + (newOrderBook h ps).sells.length + 1) st (newOrderBook h ps).buys
              (newOrderBook h ps).sells last m with
          | none => rw [e2] at hr; cases hr
          | some x =>
            obtain ⟨st', mp', m'⟩ := x
            rw [e2] at hr
            simp only [Option.some.injEq] at hr
            rw [← hr]
            have hst : SideOk st.heap .buy (newOrderBook h ps).buys ∧ SideOk st.heap .sell (newOrderBook h ps).sells := by
              rcases matchAtSinglePrice_spec hpos sb ss with ⟨_, f2⟩ | ⟨mm, fb, fsl, _, _, f2, _, _, _, _, _, hg, _, _⟩
              · rw [f2] at e
                simp only [Option.some.injEq, Prod.mk.injEq] at e
                rw [← e.1]; exact ⟨sb, ss⟩
              · rw [f2] at e
                simp only [Option.some.injEq, Prod.mk.injEq] at e
                rw [← e.1]; exact ⟨sb.applyGood hg.valid, ss.applyGood hg.valid⟩
            refine loop_uncrossed _ _ _ _ _ _ _ _ _ _ hst.1 hst.2 hk.buys.sorted hk.sells.sorted ?_ (by omega) e2
            intro t ht
            obtain ⟨x, hx⟩ := List.exists_mem_of_ne_nil _ (hk.sells.nonempty t ht)
            rw [← ss.prices t ht x hx]
            have hx2 := hk.sells.perm.mem_iff.1 (List.mem_flatMap.2 ⟨t, ht, hx⟩)
            exact hone x (eligible_mem hx2).1 (eligible_mem hx2).2
  obtain ⟨r', fs, e1, e2, _, e4, _⟩ := obMatch_spec hpos sb ss
  rw [hr] at e1
  cases e1
  have hh : r.st.heap = applyFills h fs := by rw [e2]; rfl
  rw [hh] at hu mp mq
  exact book_uncrossed e4 hu hp hq hb hs mp mq

/-- A book: three buys and two sells, crossing. -/
private def bookDemo : Heap := fun i =>
  match i with
  | 0 => newBaseOrder .buy (12 * 10 ^ 17) 1000 1200 (.user 1 1)
  | 1 => newBaseOrder .buy (11 * 10 ^ 17) 500 550 (.user 2 1)
  | 2 => newBaseOrder .buy (10 * 10 ^ 17) 300 300 (.user 3 1)
  | 3 => newBaseOrder .sell (10 * 10 ^ 17) 700 700 (.user 4 1)
  | _ => newBaseOrder .sell (115 * 10 ^ 16) 900 900 (.user 5 1)

instance (o : Order) : Decidable (Live o) :=
  decidable_of_iff (0 < o.price ∧ 0 ≤ o.openAmt ∧ o.openAmt ≤ o.amount ∧ 0 ≤ o.paid ∧ o.paid ≤ o.offer ∧
      (o.dir = .sell → o.openAmt ≤ o.offer - o.paid) ∧ 0 ≤ o.received)
    ⟨fun ⟨a, b, c, d, e, f, g⟩ => ⟨a, b, c, d, e, f, g⟩,
      fun h => ⟨h.price_pos, h.open_nonneg, h.open_le, h.paid_nonneg, h.paid_le, h.sell_open, h.received_nonneg⟩⟩

/-- The hypotheses hold for this book; the buy at 1.1 and the sell at 1.15 remain. -/
example : Dec.one ≤ 11 * 10 ^ 17 ∧ (∀ p ∈ [0, 1, 2, 3, 4], Live (bookDemo p)) ∧
    (∀ p ∈ [0, 1, 2, 3, 4], (bookDemo p).dir = .sell → Dec.one ≤ (bookDemo p).price) ∧
    (obMatch bookDemo (newOrderBook bookDemo [0, 1, 2, 3, 4]) (11 * 10 ^ 17)).map
      (fun r => [0, 1, 2, 3, 4].map (fun p => matchableAmount (r.st.heap p) (bookDemo p).price)) =
      some [0, 500, 300, 0, 600] := by decide +kernel

/-- **C65** The prices of at least one matter: with a last price of 0.4 and a buy order that is worth nothing at it, a
buy at 1.0 and a sell at 0.4 are both left. -/
theorem C65_dust_left_crossed : ∃ (h : Heap) (last : Int) (r : MatchResult), 0 < last ∧ (∀ p ∈ [0, 1, 2], Live (h p)) ∧
    obMatch h (newOrderBook h [0, 1, 2]) last = some r ∧ (h 0).dir = .buy ∧ (h 2).dir = .sell ∧
    0 < matchableAmount (r.st.heap 0) (h 0).price ∧ 0 < matchableAmount (r.st.heap 2) (h 2).price ∧
    (h 2).price < (h 0).price := by
  let h : Heap := fun i =>
    match i with
    | 0 => newBaseOrder .buy (10 ^ 18) 1 1 (.user 1 1)
    | 1 => newBaseOrder .buy (4 * 10 ^ 17) 100 40 (.user 2 1)
    | _ => newBaseOrder .sell (4 * 10 ^ 17) 150 150 (.user 3 1)
  have e : ∃ r, obMatch h (newOrderBook h [0, 1, 2]) (4 * 10 ^ 17) = some r := by
    rw [← Option.isSome_iff_exists]; decide +kernel
  obtain ⟨r, hr⟩ := e
  have f : (obMatch h (newOrderBook h [0, 1, 2]) (4 * 10 ^ 17)).map
      (fun r => (matchableAmount (r.st.heap 0) (h 0).price, matchableAmount (r.st.heap 2) (h 2).price)) = some (1, 50) := by
    decide +kernel
  rw [hr] at f
  simp only [Option.map_some, Option.some.injEq, Prod.mk.injEq] at f
  refine ⟨h, 4 * 10 ^ 17, r, by decide, by decide +kernel, hr, rfl, rfl, ?_, ?_, by decide⟩
  · rw [f.1]; decide
  · rw [f.2]; decide

theorem funded_matchable {o : Order} (hl : Live o) (hf : Funded o) {x : Int} (h1 : Dec.one ≤ x)
    (hx : WithinLimit o x) : matchableAmount o x = o.openAmt := by
  have hk := (live_iff o).1 hl
  have hx0 : 0 < x := lt_of_lt_of_le Verif.Amm.one_pos h1
  have h0 := hl.open_nonneg
  by_cases hz : o.openAmt = 0
  · have a1 := matchable_nonneg hk hx0
    have a2 := matchable_le_open hk hx0
    omega
  · have hw := quoteFloor_pos_of_one_le h1 (show 0 < o.openAmt by omega)
    cases hd : o.dir with
    | sell => rw [matchable_sell hd, if_neg (ne_of_gt hw)]
    | buy =>
      unfold Funded cost at hf
      unfold WithinLimit at hx
      rw [hd] at hf hx
      simp only at hf hx
      have hle : o.openAmt ≤ (o.offer - o.paid) * Dec.one / x := by
        apply Int.le_ediv_of_mul_le hx0
        have e := quoteUp_eq (p := o.price) (a := o.openAmt) (Int.mul_nonneg (le_of_lt hl.price_pos) h0)
        have a1 := (quoteCeil_spec (p := o.price) (a := o.openAmt) (Int.mul_nonneg (le_of_lt hl.price_pos) h0)).2.1
        rw [e] at a1
        have a2 := Int.mul_le_mul_of_nonneg_right hf (le_of_lt Verif.Amm.one_pos)
        have a3 := Int.mul_le_mul_of_nonneg_left hx h0
        have e2 : o.price * o.openAmt = o.openAmt * o.price := Int.mul_comm _ _
        omega
      rw [matchable_buy hk hd hx0, min_eq_left hle, if_neg (ne_of_gt hw)]

/-- Depth of a side of the book at a price from one on, when every order in it is funded and within its limit. -/
theorem side_depth {h : Heap} {ps : List Nat} {d : Dir} {inc : Bool} {ts : List Tick} {m : Int} (q : Int → Bool)
    (hk : TicksOk inc h (eligible h d ps) ts) (hl : ∀ p ∈ ps, Live (h p)) (hf : ∀ p ∈ ps, Funded (h p)) (h1 : Dec.one ≤ m)
    (hown : ∀ p ∈ ps, (h p).dir = d → q (h p).price = true → Dec.one ≤ (h p).price)
    (hq : ∀ p ∈ ps, (h p).dir = d → q (h p).price = true → WithinLimit (h p) m) :
    ticksTotal h (ts.filter (fun t => q t.price)) m = ownDepth h ps d (fun x => q x = true) := by
  have hprices : ∀ t ∈ ts, ∀ p ∈ t.orders, (h p).price = t.price := by
    intro t ht p hp
    rw [hk.content t ht, List.mem_filter] at hp
    simpa using hp.2
  rw [ticks_filter_total q m hprices]
  unfold depth ownDepth
  rw [(hk.perm.filter _).map _ |>.sum_eq]
  unfold eligible
  rw [List.filter_filter]
  have key : ∀ l : List Nat, (∀ p ∈ l, p ∈ ps) →
      ((l.filter (fun p => q (h p).price && (decide ((h p).dir = d) && decide (0 < matchableAmount (h p) (h p).price)))).map
        (fun p => matchableAmount (h p) m)).sum =
      ((l.filter (fun p => decide ((h p).dir = d ∧ q (h p).price = true))).map (fun p => matchableAmount (h p) (h p).price)).sum := by
    intro l
    induction l with
    | nil => intro _; rfl
    | cons p l ih =>
      intro hsub
      have ih' := ih (fun x hx => hsub x (List.mem_cons_of_mem _ hx))
      have hp := hsub p (by simp)
      by_cases c : (h p).dir = d ∧ q (h p).price = true
      · have w : WithinLimit (h p) (h p).price := by unfold WithinLimit; cases (h p).dir <;> simp
        have e1 := funded_matchable (hl p hp) (hf p hp) h1 (hq p hp c.1 c.2)
        have e2 := funded_matchable (hl p hp) (hf p hp) (hown p hp c.1 c.2) w
        rw [List.filter_cons_of_pos (p := fun p => decide ((h p).dir = d ∧ q (h p).price = true)) (by simpa using c)]
        by_cases c2 : 0 < matchableAmount (h p) (h p).price
        · rw [List.filter_cons_of_pos (by simp [c.1, c.2, c2]), List.map_cons, List.map_cons, List.sum_cons, List.sum_cons, ih', e1, e2]
        · rw [List.filter_cons_of_neg (by simp [c2]), List.map_cons, List.sum_cons, ih']
          have := (hl p hp).open_nonneg
          omega
      · rw [List.filter_cons_of_neg (p := fun p => decide ((h p).dir = d ∧ q (h p).price = true)) (by simpa using c)]
        rw [List.filter_cons_of_neg, ih']
        simp only [Bool.and_eq_true, decide_eq_true_eq, not_and]
        intro a b
        exact absurd ⟨b, a⟩ c
  exact key ps (fun _ h => h)

/-- **C65** The first batch of a pair, where the price is searched: when the limits are ticks, the sell limits at least one
and the orders funded, matching at the price found leaves nothing crossed; and when no price is found, nothing was
crossed. -/
theorem C65_first_price_uncrossed (h : Heap) (ps : List Nat) (prec : Nat) (hprec : prec ≤ 18) (hnd : ps.Nodup)
    (hl : ∀ p ∈ ps, Live (h p)) (hf : ∀ p ∈ ps, Funded (h p)) (ht : ∀ p ∈ ps, InRange prec (h p).price)
    (hone : ∀ p ∈ ps, (h p).dir = .sell → Dec.one ≤ (h p).price) (p q : Nat) (hp : p ∈ ps) (hq : q ∈ ps)
    (hb : (h p).dir = .buy) (hs : (h q).dir = .sell) :
    (∀ m st x, findMatchPrice (makeView h (newOrderBook h ps)).toView prec = some m →
      matchAtSinglePrice h (newOrderBook h ps) m = some (st, x) → 0 < matchableAmount (st.heap p) (h p).price →
      0 < matchableAmount (st.heap q) (h q).price → (h p).price < (h q).price) ∧
    (findMatchPrice (makeView h (newOrderBook h ps)).toView prec = none → 0 < matchableAmount (h p) (h p).price →
      0 < matchableAmount (h q) (h q).price → (h p).price < (h q).price) := by
  obtain ⟨sb, ss⟩ := book_sides hnd hl
  have hk := bookOk_new h ps
  have hmono := (C31_views_are_monotone h ps hl).1
  have pos_depth : ∀ (d : Dir) (Q : Int → Prop) [DecidablePred Q] (x : Nat), x ∈ ps → (h x).dir = d → Q (h x).price →
      0 < matchableAmount (h x) (h x).price → 0 < ownDepth h ps d Q := by
    intro d Q _ x hx hd hQ hm
    unfold ownDepth
    have hmem : x ∈ ps.filter (fun p => decide ((h p).dir = d ∧ Q (h p).price)) := List.mem_filter.2 ⟨hx, by simp [hd, hQ]⟩
    obtain ⟨a, b, e⟩ := List.append_of_mem hmem
    have nn : ∀ l : List Nat, (∀ y ∈ l, y ∈ ps) → 0 ≤ (l.map (fun p => matchableAmount (h p) (h p).price)).sum := by
      intro l hsub
      apply List.sum_nonneg
      intro v hv
      obtain ⟨y, hy, rfl⟩ := List.mem_map.1 hv
      exact matchable_nonneg ((live_iff _).1 (hl y (hsub y hy))) (hl y (hsub y hy)).price_pos
    have ha := nn a (fun y hy => List.mem_of_mem_filter (p := fun p => decide ((h p).dir = d ∧ Q (h p).price)) (by rw [e]; exact List.mem_append_left _ hy))
    have hb := nn b (fun y hy => List.mem_of_mem_filter (p := fun p => decide ((h p).dir = d ∧ Q (h p).price)) (by rw [e]; exact List.mem_append_right _ (List.mem_cons_of_mem _ hy)))
    rw [e, List.map_append, List.map_cons, List.sum_append, List.sum_cons]
    omega
  constructor
  · intro m st x hm hst mp mq
    obtain ⟨⟨b, s, eb, es, hbs⟩, _⟩ := C31_found _ prec hmono hprec m hm
    obtain ⟨⟨pb, hpb, db, mb, rfl⟩, _⟩ := ((C28_best_prices h ps).1 b).1 eb
    obtain ⟨⟨qs, hqs, ds, ms, rfl⟩, hlow⟩ := ((C28_best_prices h ps).2 s).1 es
    obtain ⟨cs, cb⟩ := C31_balances _ prec hmono hprec m (h qs).price hm (ht qs hqs)
      (by show 0 < (makeView h (newOrderBook h ps)).buyAmountOver _ true
          rw [(C28_depth h ps hl _).1]; exact pos_depth .buy _ pb hpb db hbs mb)
      (by show 0 < (makeView h (newOrderBook h ps)).sellAmountUnder _ true
          rw [(C28_depth h ps hl _).2.2.1]; exact pos_depth .sell _ qs hqs ds (le_refl _) ms)
    obtain ⟨_, ti, tj, _, _, hmr, _⟩ := C31_found _ prec hmono hprec m hm
    have hmp : 0 < m := isTick_pos hmr.1
    -- the sells reach down to `m`, so `m` is at least one
    have hm1 : Dec.one ≤ m := by
      have h0 := cs.1
      change 0 < (makeView h (newOrderBook h ps)).sellAmountUnder m true at h0
      rw [(C28_depth h ps hl m).2.2.1] at h0
      unfold ownDepth at h0
      cases e : ps.filter (fun p => decide ((h p).dir = .sell ∧ (h p).price ≤ m)) with
      | nil => rw [e] at h0; simp at h0
      | cons y l =>
        have hy : y ∈ ps.filter (fun p => decide ((h p).dir = .sell ∧ (h p).price ≤ m)) := by rw [e]; simp
        rw [List.mem_filter] at hy
        have h2 := hy.2
        simp only [decide_eq_true_eq] at h2
        exact le_trans (hone y hy.1 h2.1) h2.2
    have nextT := isNext_up hmp prec
    have hbal1 : ticksTotal h ((newOrderBook h ps).buys.filter (fun t => decide (m < t.price))) m ≤
        ticksTotal h (buildSide true (newOrderBook h ps).sells m) m := by
      rw [buildSide_filter m hk.sells.sorted]
      simp only [if_true]
      rw [side_depth (fun y => decide (m < y)) hk.buys hl hf hm1 (fun y _ _ hy => by simp at hy; omega)
          (fun y _ hd hy => by unfold WithinLimit; rw [hd]; simp at hy ⊢; omega),
        side_depth (fun y => decide (y ≤ m)) hk.sells hl hf hm1 (fun y hy hd _ => hone y hy hd)
          (fun y _ hd hy => by unfold WithinLimit; rw [hd]; simpa using hy)]
      have h2 := cs.2 _ nextT
      change (makeView h (newOrderBook h ps)).buyAmountOver _ true ≤ (makeView h (newOrderBook h ps)).sellAmountUnder _ true at h2
      rw [(C28_depth h ps hl _).1, (C28_depth h ps hl _).2.2.1] at h2
      have e1 : ownDepth h ps .buy (fun y => decide (m < y) = true) = ownDepth h ps .buy (fun y => upTick m prec ≤ y) := by
        unfold ownDepth
        congr 2
        apply List.filter_congr
        intro y hy
        simp only [decide_eq_true_eq, decide_eq_decide]
        constructor
        · rintro ⟨a, c⟩; exact ⟨a, nextT.2.2 _ (ht y hy).1 c⟩
        · rintro ⟨a, c⟩; exact ⟨a, lt_of_lt_of_le nextT.2.1 c⟩
      have e2 : ownDepth h ps .sell (fun y => decide (y ≤ m) = true) = ownDepth h ps .sell (fun y => y ≤ m) := by
        unfold ownDepth; simp only [decide_eq_true_eq]
      rw [e1, e2]
      exact h2
    have hbal2 : ticksTotal h ((newOrderBook h ps).sells.filter (fun t => decide (t.price < m))) m ≤
        ticksTotal h (buildSide false (newOrderBook h ps).buys m) m := by
      rw [buildSide_filter m hk.buys.sorted]
      simp only [Bool.false_eq_true, if_false]
      rw [side_depth (fun y => decide (y < m)) hk.sells hl hf hm1 (fun y hy hd _ => hone y hy hd)
          (fun y _ hd hy => by unfold WithinLimit; rw [hd]; simp at hy ⊢; omega),
        side_depth (fun y => decide (m ≤ y)) hk.buys hl hf hm1 (fun y _ _ hy => by simp at hy; omega)
          (fun y _ hd hy => by unfold WithinLimit; rw [hd]; simpa using hy)]
      have e2 : ownDepth h ps .buy (fun y => decide (m ≤ y) = true) = ownDepth h ps .buy (fun y => m ≤ y) := by
        unfold ownDepth; simp only [decide_eq_true_eq]
      rw [e2]
      by_cases hempty : ps.filter (fun p => decide ((h p).dir = .sell ∧ decide ((h p).price < m) = true)) = []
      · have : ownDepth h ps .sell (fun y => decide (y < m) = true) = 0 := by unfold ownDepth; rw [hempty]; rfl
        rw [this, ← (C28_depth h ps hl m).1]
        exact le_of_lt cb.1
      · obtain ⟨y, hy⟩ := List.exists_mem_of_ne_nil _ hempty
        rw [List.mem_filter] at hy
        have hy2 := hy.2
        simp only [decide_eq_true_eq] at hy2
        have hprev : IsPrevTick prec m (downTick m prec) :=
          isPrev_down (lt_of_lt_of_le (by decide) hm1) prec
        have h2 := cb.2 _ hprev
        change (makeView h (newOrderBook h ps)).sellAmountUnder _ true ≤ (makeView h (newOrderBook h ps)).buyAmountOver _ true at h2
        rw [(C28_depth h ps hl _).1, (C28_depth h ps hl _).2.2.1] at h2
        have e1 : ownDepth h ps .sell (fun y => decide (y < m) = true) = ownDepth h ps .sell (fun y => y ≤ downTick m prec) := by
          unfold ownDepth
          congr 2
          apply List.filter_congr
          intro y hy
          simp only [decide_eq_true_eq, decide_eq_decide]
          constructor
          · rintro ⟨a, c⟩; exact ⟨a, hprev.2.2 _ (ht y hy).1 c⟩
          · rintro ⟨a, c⟩; exact ⟨a, lt_of_le_of_lt c hprev.2.1⟩
        rw [e1]
        exact h2
    have hu := single_uncrossed hm1 sb ss hk.buys.sorted hk.sells.sorted hbal1 hbal2 hst
    obtain ⟨fs, e1, e2⟩ : ∃ fs, st.heap = applyFills h fs ∧ ∀ f ∈ fs, f.ptr ∈ (newOrderBook h ps).buys.flatMap (·.orders) ∨
        f.ptr ∈ (newOrderBook h ps).sells.flatMap (·.orders) := by
      rcases matchAtSinglePrice_spec hmp sb ss with ⟨_, f2⟩ | ⟨mm, fb, fsl, _, _, f2, i1, i2, _⟩
      · rw [f2] at hst
        simp only [Option.some.injEq, Prod.mk.injEq] at hst
        exact ⟨[], by rw [← hst.1]; rfl, by simp⟩
      · rw [f2] at hst
        simp only [Option.some.injEq, Prod.mk.injEq] at hst
        refine ⟨fb ++ fsl, by rw [← hst.1]; rfl, fun f hf => ?_⟩
        rcases List.mem_append.1 hf with hf | hf
        · left
          obtain ⟨post, e⟩ := buildSide_prefix false (newOrderBook h ps).buys m
          rw [e, List.flatMap_append]; exact List.mem_append_left _ (i1.sub f hf)
        · right
          obtain ⟨post, e⟩ := buildSide_prefix true (newOrderBook h ps).sells m
          rw [e, List.flatMap_append]; exact List.mem_append_left _ (i2.sub f hf)
    rw [e1] at hu mp mq
    exact book_uncrossed e2 hu hp hq hb hs mp mq
  · intro hn mp mq
    by_contra hc
    push Not at hc
    have hex : ∃ m, findMatchPrice (makeView h (newOrderBook h ps)).toView prec = some m := by
      refine C31_exists _ prec hmono hprec (h q).price ?_ (ht q hq) ?_ ?_ ?_ ?_
      · have hpe : p ∈ (eligible h .buy ps).toFinset := List.mem_toFinset.2 (List.mem_filter.2 ⟨hp, by simp [hb, mp]⟩)
        have hqe : q ∈ (eligible h .sell ps).toFinset := List.mem_toFinset.2 (List.mem_filter.2 ⟨hq, by simp [hs, mq]⟩)
        have el : ∀ d x, x ∈ (eligible h d ps).toFinset ↔ x ∈ ps ∧ (h x).dir = d ∧ 0 < matchableAmount (h x) (h x).price := by
          intro d x; rw [List.mem_toFinset]; unfold eligible; rw [List.mem_filter]; simp
        obtain ⟨b, hbm, hbmax⟩ := (eligible h .buy ps).toFinset.exists_max_image (fun x => (h x).price) ⟨p, hpe⟩
        obtain ⟨s, hsm, hsmin⟩ := (eligible h .sell ps).toFinset.exists_min_image (fun x => (h x).price) ⟨q, hqe⟩
        have b' := (el _ _).1 hbm
        have s' := (el _ _).1 hsm
        refine ⟨(h b).price, (h s).price,
          ((C28_best_prices h ps).1 _).2 ⟨⟨b, b'.1, b'.2.1, b'.2.2, rfl⟩, fun x h1 h2 h3 => hbmax x ((el _ _).2 ⟨h1, h2, h3⟩)⟩,
          ((C28_best_prices h ps).2 _).2 ⟨⟨s, s'.1, s'.2.1, s'.2.2, rfl⟩, fun x h1 h2 h3 => hsmin x ((el _ _).2 ⟨h1, h2, h3⟩)⟩, ?_⟩
        have h1 := hbmax p hpe
        have h2 := hsmin q hqe
        omega
      · show 0 < (makeView h (newOrderBook h ps)).buyAmountOver _ true
        rw [(C28_depth h ps hl _).1]; exact pos_depth .buy _ p hp hb hc mp
      · show 0 < (makeView h (newOrderBook h ps)).sellAmountUnder _ true
        rw [(C28_depth h ps hl _).2.2.1]; exact pos_depth .sell _ q hq hs (le_refl _) mq
      · intro x hx
        show (makeView h (newOrderBook h ps)).buyAmountOver _ true = 0
        rw [(C28_depth h ps hl _).1]
        unfold ownDepth
        have : ps.filter (fun p => decide ((h p).dir = .buy ∧ x ≤ (h p).price)) = [] := by
          rw [List.filter_eq_nil_iff]; intro y hy; have := (ht y hy).2.2; simp; omega
        rw [this]; rfl
      · intro x hx
        show (makeView h (newOrderBook h ps)).sellAmountUnder _ true = 0
        rw [(C28_depth h ps hl _).2.2.1]
        unfold ownDepth
        have : ps.filter (fun p => decide ((h p).dir = .sell ∧ (h p).price ≤ x)) = [] := by
          rw [List.filter_eq_nil_iff]; intro y hy; have := (ht y hy).2.1; simp; omega
        rw [this]; rfl
    obtain ⟨m, hm⟩ := hex
    rw [hm] at hn; cases hn

/-- The same book meets the hypotheses with three-digit ticks; the price found is 1.15, and the buys at 1.1 and 1.0 and part of the sell at
1.15 remain. -/
example : (∀ p ∈ [0, 1, 2, 3, 4], cost (bookDemo p).dir (bookDemo p).price (bookDemo p).openAmt ≤ (bookDemo p).offer - (bookDemo p).paid) ∧
    (∀ p ∈ [0, 1, 2, 3, 4], priceToDownTick? (bookDemo p).price 3 = some (bookDemo p).price) ∧
    findMatchPrice (makeView bookDemo (newOrderBook bookDemo [0, 1, 2, 3, 4])).toView 3 = some (115 * 10 ^ 16) ∧
    (matchAtSinglePrice bookDemo (newOrderBook bookDemo [0, 1, 2, 3, 4]) (115 * 10 ^ 16)).map
      (fun r => [0, 1, 2, 3, 4].map (fun p => matchableAmount (r.1.heap p) (bookDemo p).price)) =
      some [0, 500, 300, 0, 600] := by decide +kernel

end Verif.Props

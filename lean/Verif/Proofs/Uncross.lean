import Verif.Proofs.MatchDepth
/-! What a matching leaves behind: no crossing pair of matchable orders (x/dex/amm/match.go). -/
namespace Verif.Amm
open Verif Verif.Spec

/-- A buy order with nothing matchable at a price from one up to its limit has nothing matchable at its limit. -/
theorem exhausted_buy {o : Order} (h : OrderOk o) (hd : o.dir = .buy) {x : Int} (h1 : Dec.one ≤ x) (hx : x ≤ o.price)
    (h0 : matchableAmount o x = 0) : matchableAmount o o.price = 0 := by
  have hx0 : 0 < x := lt_of_lt_of_le one_pos h1
  have hr : 0 ≤ (o.offer - o.paid) * Dec.one := Int.mul_nonneg (by have := h.paid_le; omega) (le_of_lt one_pos)
  have hmono : (o.offer - o.paid) * Dec.one / o.price ≤ (o.offer - o.paid) * Dec.one / x := by
    apply Int.le_ediv_of_mul_le hx0
    have a1 := Int.ediv_mul_le ((o.offer - o.paid) * Dec.one) (ne_of_gt h.price_pos)
    have a2 : 0 ≤ (o.offer - o.paid) * Dec.one / o.price := Int.ediv_nonneg hr (le_of_lt h.price_pos)
    have a3 := Int.mul_le_mul_of_nonneg_left hx a2
    omega
  have hnn : 0 ≤ min o.openAmt ((o.offer - o.paid) * Dec.one / o.price) :=
    le_min h.open_nonneg (Int.ediv_nonneg hr (le_of_lt h.price_pos))
  have hm0 : min o.openAmt ((o.offer - o.paid) * Dec.one / x) ≤ 0 := by
    rw [matchable_buy h hd hx0] at h0
    by_contra hc
    push Not at hc
    rw [if_neg (ne_of_gt (quoteFloor_pos_of_one_le h1 hc))] at h0
    omega
  have e : min o.openAmt ((o.offer - o.paid) * Dec.one / o.price) = 0 := by omega
  rw [matchable_buy h hd h.price_pos, e]
  simp

/-- A sell order with nothing matchable at a price from its limit up has nothing matchable at its limit. -/
theorem exhausted_sell {o : Order} (h : OrderOk o) (hd : o.dir = .sell) {x : Int} (hx : o.price ≤ x)
    (h0 : matchableAmount o x = 0) : matchableAmount o o.price = 0 := by
  rw [matchable_sell hd] at h0 ⊢
  have hx0 : 0 < x := lt_of_lt_of_le h.price_pos hx
  have hq : quoteFloor x o.openAmt = 0 := by
    by_contra hc
    rw [if_neg hc] at h0
    rw [h0] at hc
    exact hc (by simp [quoteFloor, Dec.mulInt, Dec.truncateInt])
  have a1 := quoteFloor_spec (p := x) (a := o.openAmt) (Int.mul_nonneg (le_of_lt hx0) h.open_nonneg)
  have a2 := quoteFloor_spec (p := o.price) (a := o.openAmt) (Int.mul_nonneg (le_of_lt h.price_pos) h.open_nonneg)
  have a3 := Int.mul_le_mul_of_nonneg_right hx h.open_nonneg
  have : quoteFloor o.price o.openAmt = 0 := by
    rw [hq] at a1
    have h1 : quoteFloor o.price o.openAmt * Dec.one < 1 * Dec.one := by omega
    have h2 := Int.lt_of_mul_lt_mul_right h1 (le_of_lt one_pos)
    omega
  rw [if_pos this]

theorem indep_sum_le {h : Heap} {price : Int} (hp : 0 < price) : ∀ {fs : List Fill} {ps : List Nat}, HeapOk h ps →
    Indep h price ps fs → amtSum fs ≤ totalMatchable h ps price
  | [], ps, hk, _ => by simpa [amtSum] using totalMatchable_nonneg hp hk
  | f :: fs, ps, hk, hi => by
    have hmem := hi.sub f (by simp)
    have hnd := hi.nodup
    simp only [List.map_cons, List.nodup_cons, List.mem_map, not_exists, not_and] at hnd
    have hi' : Indep h price (ps.erase f.ptr) fs :=
      ⟨hnd.2, fun g hg => (List.mem_erase_of_ne (fun e => hnd.1 g hg e)).2 (hi.sub g (List.mem_cons_of_mem _ hg)),
        fun g hg => hi.price_eq g (List.mem_cons_of_mem _ hg), fun g hg => hi.pos g (List.mem_cons_of_mem _ hg),
        fun g hg => hi.le g (List.mem_cons_of_mem _ hg)⟩
    have ih := indep_sum_le hp (fs := fs) (fun p hp' => hk p (List.mem_of_mem_erase hp')) hi'
    have e : totalMatchable h ps price = matchableAmount (h f.ptr) price + totalMatchable h (ps.erase f.ptr) price := by
      rw [totalMatchable_perm (List.perm_cons_erase hmem), totalMatchable_eq, totalMatchable_eq]; simp
    have := hi.le f (by simp)
    rw [e]
    simp only [amtSum, List.map_cons, List.sum_cons] at *
    omega

theorem indep_filter {h : Heap} {price : Int} {ps : List Nat} {fs : List Fill} (hi : Indep h price ps fs) (q : Nat) :
    Indep h price (ps.erase q) (fs.filter (fun f => f.ptr != q)) where
  nodup := (List.Sublist.map _ List.filter_sublist).nodup hi.nodup
  sub := fun f hf => by
    rw [List.mem_filter] at hf
    exact (List.mem_erase_of_ne (by simpa using hf.2)).2 (hi.sub f hf.1)
  price_eq := fun f hf => hi.price_eq f (List.mem_of_mem_filter hf)
  pos := fun f hf => hi.pos f (List.mem_of_mem_filter hf)
  le := fun f hf => hi.le f (List.mem_of_mem_filter hf)

/-- Fills that add up to everything matchable exhaust every order. -/
theorem indep_full {h : Heap} {price : Int} (hp : 0 < price) {ps : List Nat} {fs : List Fill} (hk : HeapOk h ps)
    (hi : Indep h price ps fs) (he : totalMatchable h ps price ≤ amtSum fs) :
    ∀ q ∈ ps, matchableAmount (applyFills h fs q) price = 0 := by
  intro q hq
  have e : totalMatchable h ps price = matchableAmount (h q) price + totalMatchable h (ps.erase q) price := by
    rw [totalMatchable_perm (List.perm_cons_erase hq), totalMatchable_eq, totalMatchable_eq]; simp
  have hrest := indep_sum_le hp (fun p hp' => hk p (List.mem_of_mem_erase hp')) (indep_filter hi q)
  have hq0 := matchable_nonneg (hk q hq) hp
  by_cases hex : ∃ f ∈ fs, f.ptr = q
  · obtain ⟨f, hf, hfq⟩ := hex
    have hsplit : amtSum fs = f.amt + amtSum (fs.filter (fun g => g.ptr != q)) := by
      have key : ∀ l : List Fill, (l.map (·.ptr)).Nodup → f ∈ l → amtSum l = f.amt + amtSum (l.filter (fun g => g.ptr != q)) := by
        intro l
        induction l with
        | nil => intro _ hm; cases hm
        | cons g l ih =>
          intro hnd hm
          simp only [List.map_cons, List.nodup_cons, List.mem_map, not_exists, not_and] at hnd
          rcases List.mem_cons.1 hm with rfl | hm
          · have : l.filter (fun g => g.ptr != q) = l := by
              rw [List.filter_eq_self]
              intro g hg
              simpa [hfq] using hnd.1 g hg
            rw [List.filter_cons_of_neg (by simp [hfq]), this]
            simp [amtSum]
          · have hne : g.ptr ≠ q := fun e => hnd.1 f hm (by rw [hfq, e])
            rw [List.filter_cons_of_pos (by simpa using hne)]
            have := ih hnd.2 hm
            simp only [amtSum, List.map_cons, List.sum_cons] at this ⊢
            omega
      exact key fs hi.nodup hf
    have hle := hi.le f hf
    rw [hfq] at hle
    have : f.amt = matchableAmount (h q) price := by omega
    have e2 := applyFills_mem hi hf
    rw [hfq] at e2
    rw [e2, this]
    exact filled_exhausted (hk q hq) hp
  · push Not at hex
    have : fs.filter (fun f => f.ptr != q) = fs := by
      rw [List.filter_eq_self]; intro f hf; simpa using hex f hf
    rw [this] at hrest
    rw [applyFills_other hex]
    omega

/-- With price priority, a filled amount that covers the leading ticks exhausts them. -/
theorem priority_full {h : Heap} {price : Int} (hp : 0 < price) {pre post : List Tick} {fs : List Fill}
    (hk : HeapOk h ((pre ++ post).flatMap (·.orders)))
    (hi : Indep h price ((pre ++ post).flatMap (·.orders)) fs) (hpp : PricePriority h price (pre ++ post) fs)
    (he : ticksTotal h pre price ≤ amtSum fs) :
    ∀ q ∈ pre.flatMap (·.orders), matchableAmount (applyFills h fs q) price = 0 := by
  by_cases hex : ∃ f ∈ fs, f.ptr ∈ post.flatMap (·.orders)
  · obtain ⟨f, hf, hfp⟩ := hex
    intro q hq
    obtain ⟨t, ht, hqt⟩ := List.mem_flatMap.1 hq
    obtain ⟨a, b, e⟩ := List.append_of_mem ht
    refine (hpp a t (b ++ post) (by rw [e]; simp) f hf ?_ q hqt).2
    rw [List.flatMap_append]
    exact List.mem_append_right _ hfp
  · push Not at hex
    have hi' : Indep h price (pre.flatMap (·.orders)) fs :=
      ⟨hi.nodup, fun f hf => by
        have := hi.sub f hf
        rw [List.flatMap_append] at this
        exact (List.mem_append.1 this).resolve_right (hex f hf), hi.price_eq, hi.pos, hi.le⟩
    rw [ticksTotal_eq] at he
    exact indep_full hp (fun p hp' => hk p (by rw [List.flatMap_append]; exact List.mem_append_left _ hp')) hi' he

/-- No buy order of `bs` and sell order of `ss` with something matchable at their limits cross. -/
def Uncrossed (h : Heap) (bs ss : List Tick) : Prop :=
  ∀ p ∈ bs.flatMap (·.orders), ∀ q ∈ ss.flatMap (·.orders), 0 < matchableAmount (h p) (h p).price →
    0 < matchableAmount (h q) (h q).price → (h p).price < (h q).price

theorem filter_at_split {α : Type} (f : α → Int) (x : Int) : ∀ {l : List α}, l.Pairwise (fun a b => f a < f b) →
    l.filter (fun a => decide (f a ≤ x)) = l.filter (fun a => decide (f a < x)) ++ l.filter (fun a => decide (f a = x))
  | [], _ => by simp
  | a :: l, hs => by
    rw [List.pairwise_cons] at hs
    have ih := filter_at_split f x hs.2
    rcases lt_trichotomy (f a) x with h | h | h
    · rw [List.filter_cons_of_pos (by simpa using le_of_lt h), List.filter_cons_of_pos (by simpa using h),
        List.filter_cons_of_neg (by simpa using ne_of_lt h), ih]
      rfl
    · have e1 : l.filter (fun a => decide (f a < x)) = [] := by
        rw [List.filter_eq_nil_iff]; intro b hb; have := hs.1 b hb; simp; omega
      rw [List.filter_cons_of_pos (by simpa using le_of_eq h), List.filter_cons_of_neg (by simp; omega),
        List.filter_cons_of_pos (by simpa using h), ih, e1]
      rfl
    · rw [List.filter_cons_of_neg (by simp; omega), List.filter_cons_of_neg (by simp; omega),
        List.filter_cons_of_neg (by simp; omega), ih]

theorem sells_split {ts : List Tick} (hs : ts.Pairwise (fun a b => priceBefore true a.price b.price)) (x : Int) :
    buildSide true ts x = ts.filter (fun t => decide (t.price < x)) ++ ts.filter (fun t => decide (t.price = x)) := by
  rw [buildSide_filter x hs]
  exact filter_at_split (fun t : Tick => t.price) x (hs.imp (by intro a b h; simpa [priceBefore] using h))

theorem buys_split {ts : List Tick} (hs : ts.Pairwise (fun a b => priceBefore false a.price b.price)) (x : Int) :
    buildSide false ts x = ts.filter (fun t => decide (x < t.price)) ++ ts.filter (fun t => decide (t.price = x)) := by
  rw [buildSide_filter x hs]
  have := filter_at_split (fun t : Tick => -t.price) (-x) (l := ts) (hs.imp (by intro a b h; simpa [priceBefore] using h))
  simp only [neg_le_neg_iff, neg_lt_neg_iff, neg_inj] at this
  simpa using this

theorem PricePriority.nil (h : Heap) (price : Int) (ts : List Tick) : PricePriority h price ts [] := by
  intro pre t post _ f hf; cases hf

/-- Orders of one side of a book by tick. -/
theorem SideOk.tick {h : Heap} {d : Dir} {ts : List Tick} (hs : SideOk h d ts) {p : Nat} (hp : p ∈ ts.flatMap (·.orders)) :
    ∃ t ∈ ts, p ∈ t.orders ∧ (h p).price = t.price := by
  obtain ⟨t, ht, hpt⟩ := List.mem_flatMap.1 hp
  exact ⟨t, ht, hpt, hs.prices t ht p hpt⟩

/-- Fills at one price for the smaller of the two sides' totals, by price priority, leave nothing crossed, if neither the
buys above nor the sells below the price exceed the other side. -/
theorem single_core {h : Heap} {bs ss : List Tick} {price : Int} (h1 : Dec.one ≤ price)
    (hb : SideOk h .buy bs) (hs : SideOk h .sell ss)
    (sb : bs.Pairwise (fun a b => priceBefore false a.price b.price))
    (sss : ss.Pairwise (fun a b => priceBefore true a.price b.price))
    (bal1 : ticksTotal h (bs.filter (fun t => decide (price < t.price))) price ≤ ticksTotal h (buildSide true ss price) price)
    (bal2 : ticksTotal h (ss.filter (fun t => decide (t.price < price))) price ≤ ticksTotal h (buildSide false bs price) price)
    {fb fsl : List Fill} (i1 : Indep h price ((buildSide false bs price).flatMap (·.orders)) fb)
    (i2 : Indep (applyFills h fb) price ((buildSide true ss price).flatMap (·.orders)) fsl)
    (p1 : PricePriority h price (buildSide false bs price) fb)
    (p2 : PricePriority (applyFills h fb) price (buildSide true ss price) fsl)
    (m1 : amtSum fb = min (ticksTotal h (buildSide false bs price) price) (ticksTotal h (buildSide true ss price) price))
    (m2 : amtSum fsl = min (ticksTotal h (buildSide false bs price) price) (ticksTotal h (buildSide true ss price) price)) :
    Uncrossed (applyFills h (fb ++ fsl)) bs ss := by
  have hp : 0 < price := lt_of_lt_of_le one_pos h1
  have subB : ∀ p ∈ (buildSide false bs price).flatMap (·.orders), p ∈ bs.flatMap (·.orders) := by
    intro p hp
    obtain ⟨post, e⟩ := buildSide_prefix false bs price
    rw [e, List.flatMap_append]; exact List.mem_append_left _ hp
  have subS : ∀ p ∈ (buildSide true ss price).flatMap (·.orders), p ∈ ss.flatMap (·.orders) := by
    intro p hp
    obtain ⟨post, e⟩ := buildSide_prefix true ss price
    rw [e, List.flatMap_append]; exact List.mem_append_left _ hp
  have sameS : ∀ q ∈ ss.flatMap (·.orders), applyFills h fb q = h q := by
    intro q hq
    apply applyFills_other
    intro f hf e
    have a1 := hb.dirs _ (subB _ (i1.sub f hf))
    have a2 := hs.dirs _ hq
    rw [e, a2] at a1; cases a1
  have sameB : ∀ p ∈ bs.flatMap (·.orders), applyFills h (fb ++ fsl) p = applyFills h fb p := by
    intro p hpm
    rw [applyFills_append]
    apply applyFills_other
    intro f hf e
    have a1 := hs.dirs _ (subS _ (i2.sub f hf))
    have a2 := hb.dirs _ hpm
    rw [e, a2] at a1; cases a1
  have hkS : HeapOk (applyFills h fb) (ss.flatMap (·.orders)) := i1.heapOk hp hs.ok
  have hkB : HeapOk (applyFills h (fb ++ fsl)) (bs.flatMap (·.orders)) := by
    rw [applyFills_append]; exact i2.heapOk hp (i1.heapOk hp hb.ok)
  have hkS' : HeapOk (applyFills h (fb ++ fsl)) (ss.flatMap (·.orders)) := by
    rw [applyFills_append]; exact i2.heapOk hp hkS
  have totS : ∀ ts : List Tick, (∀ t ∈ ts, t ∈ ss) → ticksTotal (applyFills h fb) ts price = ticksTotal h ts price := by
    intro ts hts
    rw [ticksTotal_eq, ticksTotal_eq]
    apply totalMatchable_congr
    intro q hq
    obtain ⟨t, ht, hqt⟩ := List.mem_flatMap.1 hq
    exact sameS q (List.mem_flatMap.2 ⟨t, hts t ht, hqt⟩)
  have eB := buys_split sb price
  have eS := sells_split sss price
  have nnB := ticksTotal_nonneg (ts := bs.filter (fun t => decide (t.price = price))) hp
    (fun p hpm => by
      obtain ⟨t, ht, hpt⟩ := List.mem_flatMap.1 hpm
      exact hb.ok p (List.mem_flatMap.2 ⟨t, List.mem_of_mem_filter ht, hpt⟩))
  have nnS := ticksTotal_nonneg (ts := ss.filter (fun t => decide (t.price = price))) hp
    (fun p hpm => by
      obtain ⟨t, ht, hpt⟩ := List.mem_flatMap.1 hpm
      exact hs.ok p (List.mem_flatMap.2 ⟨t, List.mem_of_mem_filter ht, hpt⟩))
  have tB := congrArg (fun l => ticksTotal h l price) eB
  have tS := congrArg (fun l => ticksTotal h l price) eS
  simp only [ticksTotal_append] at tB tS
  -- exhaustion of a leading part of the buys
  have exB : ∀ pre post, buildSide false bs price = pre ++ post → ticksTotal h pre price ≤ amtSum fb →
      ∀ p ∈ pre.flatMap (·.orders), p ∈ bs.flatMap (·.orders) → price ≤ (h p).price →
        matchableAmount (applyFills h (fb ++ fsl) p) (applyFills h (fb ++ fsl) p).price = 0 := by
    intro pre post e hle p hpm hpb hlim
    have h0 := priority_full hp (h := h) (fs := fb) (pre := pre) (post := post)
      (fun q hq => hb.ok q (subB q (by rw [e]; exact hq))) (by rw [← e]; exact i1) (by rw [← e]; exact p1) hle p hpm
    rw [← sameB p hpb] at h0
    exact exhausted_buy (hkB p hpb) (by rw [applyFills_dir]; exact hb.dirs p hpb) h1 (by rw [applyFills_price]; exact hlim) h0
  have exS : ∀ pre post, buildSide true ss price = pre ++ post → (∀ t ∈ pre, t ∈ ss) → ticksTotal h pre price ≤ amtSum fsl →
      ∀ q ∈ pre.flatMap (·.orders), q ∈ ss.flatMap (·.orders) → (h q).price ≤ price →
        matchableAmount (applyFills h (fb ++ fsl) q) (applyFills h (fb ++ fsl) q).price = 0 := by
    intro pre post e hsub hle q hqm hqs hlim
    have h0 := priority_full hp (h := applyFills h fb) (fs := fsl) (pre := pre) (post := post)
      (fun q hq => hkS q (subS q (by rw [e]; exact hq))) (by rw [← e]; exact i2) (by rw [← e]; exact p2)
      (by rw [totS pre hsub]; exact hle) q hqm
    rw [← applyFills_append] at h0
    exact exhausted_sell (hkS' q hqs) (by rw [applyFills_dir]; exact hs.dirs q hqs) (by rw [applyFills_price]; exact hlim) h0
  intro p hpm q hqm mp mq
  rw [applyFills_price, applyFills_price]
  obtain ⟨tp, htp, hptp, ep⟩ := hb.tick hpm
  obtain ⟨tq, htq, hqtq, eq⟩ := hs.tick hqm
  by_contra hc
  push Not at hc
  by_cases hgt : price < (h p).price
  · have := exB _ _ eB (by omega) p
      (List.mem_flatMap.2 ⟨tp, List.mem_filter.2 ⟨htp, by simp; omega⟩, hptp⟩) hpm (le_of_lt hgt)
    omega
  · by_cases hlt : (h q).price < price
    · have := exS _ _ eS (fun t ht => List.mem_of_mem_filter ht) (by omega) q
        (List.mem_flatMap.2 ⟨tq, List.mem_filter.2 ⟨htq, by simp; omega⟩, hqtq⟩) hqm (le_of_lt hlt)
      omega
    · have hp' : (h p).price = price := by omega
      have hq' : (h q).price = price := by omega
      rcases le_total (ticksTotal h (buildSide false bs price) price) (ticksTotal h (buildSide true ss price) price) with hle | hle
      · have := exB _ [] (List.append_nil _).symm (by omega) p
          (List.mem_flatMap.2 ⟨tp, by rw [eB]; exact List.mem_append_right _ (List.mem_filter.2 ⟨htp, by simp; omega⟩), hptp⟩) hpm (by omega)
        omega
      · have := exS _ [] (List.append_nil _).symm (fun t ht => by
            obtain ⟨post, e⟩ := buildSide_prefix true ss price
            rw [e]; exact List.mem_append_left _ ht) (by omega) q
          (List.mem_flatMap.2 ⟨tq, by rw [eS]; exact List.mem_append_right _ (List.mem_filter.2 ⟨htq, by simp; omega⟩), hqtq⟩) hqm (by omega)
        omega

theorem findSingle_min {h : Heap} {ob : OrderBook} {price : Int} (h1 : Dec.one ≤ price)
    (hb : SideOk h .buy ob.buys) (hs : SideOk h .sell ob.sells) :
    (findMatchableAmountAtSinglePrice h ob price).getD 0 =
      min (ticksTotal h (buildSide false ob.buys price) price) (ticksTotal h (buildSide true ob.sells price) price) := by
  have hp : 0 < price := lt_of_lt_of_le one_pos h1
  have hkb : HeapOk h ((buildSide false ob.buys price).flatMap (·.orders)) := by
    obtain ⟨post, e⟩ := buildSide_prefix false ob.buys price
    intro p hpm; apply hb.ok; rw [e, List.flatMap_append]; exact List.mem_append_left _ hpm
  have hks : HeapOk h ((buildSide true ob.sells price).flatMap (·.orders)) := by
    obtain ⟨post, e⟩ := buildSide_prefix true ob.sells price
    intro p hpm; apply hs.ok; rw [e, List.flatMap_append]; exact List.mem_append_left _ hpm
  have nb := ticksTotal_nonneg hp hkb
  have ns := ticksTotal_nonneg hp hks
  unfold findMatchableAmountAtSinglePrice
  simp only
  by_cases e1 : buildSide false ob.buys price = []
  · rw [if_pos e1, e1]
    simp [ticksTotal]; exact ns
  · rw [if_neg e1]
    by_cases e2 : buildSide true ob.sells price = []
    · rw [if_pos e2, e2]
      simp [ticksTotal]; exact nb
    · rw [if_neg e2]
      cases e3 : findLoop h price ((buildSide false ob.buys price).length + (buildSide true ob.sells price).length + 1)
        (buildSide false ob.buys price) (buildSide true ob.sells price) with
      | none =>
        have := findLoop_none h1 _ _ _ hkb hks e1 e2 (by omega) e3
        show (0 : Int) = _
        omega
      | some m => exact (findLoop_spec hp _ _ _ m hkb hks e3).2.2.2 h1

/-- `MatchAtSinglePrice` at a balanced price leaves nothing crossed. -/
theorem single_uncrossed {h : Heap} {ob : OrderBook} {price : Int} (h1 : Dec.one ≤ price)
    (hb : SideOk h .buy ob.buys) (hs : SideOk h .sell ob.sells)
    (sb : ob.buys.Pairwise (fun a b => priceBefore false a.price b.price))
    (sss : ob.sells.Pairwise (fun a b => priceBefore true a.price b.price))
    (bal1 : ticksTotal h (ob.buys.filter (fun t => decide (price < t.price))) price ≤ ticksTotal h (buildSide true ob.sells price) price)
    (bal2 : ticksTotal h (ob.sells.filter (fun t => decide (t.price < price))) price ≤ ticksTotal h (buildSide false ob.buys price) price)
    {st : MState} {m : Bool} (e : matchAtSinglePrice h ob price = some (st, m)) : Uncrossed st.heap ob.buys ob.sells := by
  have hp : 0 < price := lt_of_lt_of_le one_pos h1
  have hmin := findSingle_min h1 hb hs
  rcases matchAtSinglePrice_spec hp hb hs with ⟨f1, f2⟩ | ⟨mm, fb, fsl, f1, _, f2, i1, i2, a1, _, a2, _, p1, p2⟩
  · rw [f2] at e
    rw [f1] at hmin
    simp only [Option.some.injEq, Prod.mk.injEq] at e
    rw [← e.1]
    have := single_core h1 hb hs sb sss bal1 bal2 (fb := []) (fsl := []) (Indep.nil _ _ _) (Indep.nil _ _ _)
      (PricePriority.nil _ _ _) (PricePriority.nil _ _ _) hmin hmin
    exact this
  · rw [f2] at e
    rw [f1] at hmin
    simp only [Option.some.injEq, Prod.mk.injEq, Option.getD_some] at e hmin
    rw [← e.1]
    exact single_core h1 hb hs sb sss bal1 bal2 i1 i2 p1 p2 (by omega) (by rw [a2 h1]; exact hmin)

/-- The loop of `Match` leaves nothing crossed when all sell limits are at least one. -/
theorem loop_uncrossed (dir : PriceDir) : ∀ (fuel : Nat) (st : MState) (bs ss : List Tick) (mp : Int) (matched : Bool)
    (st' : MState) (mp' : Int) (m' : Bool), SideOk st.heap .buy bs → SideOk st.heap .sell ss →
    bs.Pairwise (fun a b => priceBefore false a.price b.price) → ss.Pairwise (fun a b => priceBefore true a.price b.price) →
    (∀ t ∈ ss, Dec.one ≤ t.price) → bs.length + ss.length < fuel →
    matchLoop dir fuel st bs ss mp matched = some (st', mp', m') → Uncrossed st'.heap bs ss := by
  intro fuel
  induction fuel with
  | zero => intro st bs ss mp matched st' mp' m' _ _ _ _ _ hf _; omega
  | succ n ih =>
    intro st bs ss mp matched st' mp' m' hb hs sb sss hone hf e
    cases bs with
    | nil => intro p hp; simp at hp
    | cons bt bs =>
      cases ss with
      | nil => intro p hp q hq; simp at hq
      | cons sk ss =>
        have hbt := hb.head
        have hst := hs.head
        obtain ⟨b1, b2, b3, b4, b5, b6⟩ := hbt
        obtain ⟨s1, s2, s3, s4, s5, s6⟩ := hst
        have sb' := List.pairwise_cons.1 sb
        have ss' := List.pairwise_cons.1 sss
        simp only [List.length_cons] at hf
        unfold matchLoop at e
        by_cases hcross : bt.price < sk.price
        · rw [if_pos hcross] at e
          simp only [Option.some.injEq, Prod.mk.injEq] at e
          rw [← e.1]
          intro p hp q hq _ _
          obtain ⟨tp, htp, _, ep⟩ := hb.tick hp
          obtain ⟨tq, htq, _, eq⟩ := hs.tick hq
          rw [ep, eq]
          have a1 : tp.price ≤ bt.price := by
            rcases List.mem_cons.1 htp with rfl | h
            · exact le_refl _
            · have := sb'.1 tp h; simp [priceBefore] at this; omega
          have a2 : sk.price ≤ tq.price := by
            rcases List.mem_cons.1 htq with rfl | h
            · exact le_refl _
            · have := ss'.1 tq h; simp [priceBefore] at this; omega
          omega
        · rw [if_neg hcross] at e
          simp only at e
          set p := (if dir = .increasing then sk.price else bt.price) with hpdef
          have hsk1 := hone sk (by simp)
          have hp1 : Dec.one ≤ p := by rw [hpdef]; split <;> omega
          have hp : 0 < p := lt_of_lt_of_le one_pos hp1
          have hpb : p ≤ bt.price := by rw [hpdef]; split <;> omega
          have hps : sk.price ≤ p := by rw [hpdef]; split <;> omega
          set bAmt := totalMatchable st.heap bt.orders p with hbA
          set sAmt := totalMatchable st.heap sk.orders p with hsA
          have nb : 0 ≤ bAmt := totalMatchable_nonneg hp b2
          have ns : 0 ≤ sAmt := totalMatchable_nonneg hp s2
          -- how an exhausted first tick joins the rest
          have joinB : ∀ (S : List Tick) (st1 : MState) (st2 : MState), SideOk st1.heap .buy (bt :: bs) →
              SideOk st1.heap .sell S → (∃ fs, st2 = st1.run fs ∧ ∀ f ∈ fs, f.ptr ∈ bs.flatMap (·.orders) ∨ f.ptr ∈ S.flatMap (·.orders)) →
              (∀ q ∈ bt.orders, matchableAmount (st1.heap q) p = 0) → Uncrossed st2.heap bs S →
              Uncrossed st2.heap (bt :: bs) S := by
            intro S st1 st2 hb1 hs1 hfs hex hu
            obtain ⟨fs, rfl, hfs⟩ := hfs
            intro x hx y hy mx my
            rw [List.flatMap_cons, List.mem_append] at hx
            rcases hx with hx | hx
            · exfalso
              have hsame : (st1.run fs).heap x = st1.heap x := by
                apply applyFills_other
                intro f hf e
                rcases hfs f hf with h2 | h2
                · rw [e] at h2; exact hb1.head.2.2.2.2.2 x hx h2
                · rw [e] at h2
                  have a1 := hb1.head.2.2.1 x hx
                  have a2 := hs1.dirs x h2
                  rw [a1] at a2; cases a2
              rw [hsame] at mx
              have := exhausted_buy (hb1.head.2.1 x hx) (hb1.head.2.2.1 x hx) hp1 (by rw [hb1.head.2.2.2.1 x hx]; exact hpb) (hex x hx)
              omega
            · exact hu x hx y hy mx my
          have joinS : ∀ (B : List Tick) (st1 : MState) (st2 : MState), SideOk st1.heap .buy B →
              SideOk st1.heap .sell (sk :: ss) → (∃ fs, st2 = st1.run fs ∧ ∀ f ∈ fs, f.ptr ∈ B.flatMap (·.orders) ∨ f.ptr ∈ ss.flatMap (·.orders)) →
              (∀ q ∈ sk.orders, matchableAmount (st1.heap q) p = 0) → Uncrossed st2.heap B ss →
              Uncrossed st2.heap B (sk :: ss) := by
            intro B st1 st2 hb1 hs1 hfs hex hu
            obtain ⟨fs, rfl, hfs⟩ := hfs
            intro x hx y hy mx my
            rw [List.flatMap_cons, List.mem_append] at hy
            rcases hy with hy | hy
            · exfalso
              have hsame : (st1.run fs).heap y = st1.heap y := by
                apply applyFills_other
                intro f hf e
                rcases hfs f hf with h2 | h2
                · rw [e] at h2
                  have a1 := hs1.head.2.2.1 y hy
                  have a2 := hb1.dirs y h2
                  rw [a1] at a2; cases a2
                · rw [e] at h2; exact hs1.head.2.2.2.2.2 y hy h2
              rw [hsame] at my
              have := exhausted_sell (hs1.head.2.1 y hy) (hs1.head.2.2.1 y hy) (by rw [hs1.head.2.2.2.1 y hy]; exact hps) (hex y hy)
              omega
            · exact hu x hx y hy mx my
          have zero : ∀ {ps : List Nat} {h : Heap}, HeapOk h ps → totalMatchable h ps p ≤ 0 →
              ∀ q ∈ ps, matchableAmount (h q) p = 0 := by
            intro ps h hk h0
            exact indep_full hp (fs := []) hk (Indep.nil _ _ _) (by simpa [amtSum] using h0)
          by_cases hb0 : ¬ 0 < bAmt
          · rw [if_pos hb0] at e
            obtain ⟨fs, x, y, e1, _, e3, _⟩ := matchLoop_spec dir n st bs (sk :: ss) mp matched hb.tail hs
            have hu := ih st bs (sk :: ss) mp matched st' mp' m' hb.tail hs sb'.2 sss hone (by simp only [List.length_cons]; omega) e
            rw [e1] at e
            simp only [Option.some.injEq, Prod.mk.injEq] at e
            exact joinB _ st st' hb hs ⟨fs, e.1.symm, e3⟩ (zero b2 (by omega)) hu
          · rw [if_neg hb0] at e
            by_cases hs0 : ¬ 0 < sAmt
            · rw [if_pos hs0] at e
              obtain ⟨fs, x, y, e1, _, e3, _⟩ := matchLoop_spec dir n st (bt :: bs) ss mp matched hb hs.tail
              have hu := ih st (bt :: bs) ss mp matched st' mp' m' hb hs.tail sb ss'.2 (fun t ht => hone t (List.mem_cons_of_mem _ ht))
                (by simp only [List.length_cons]; omega) e
              rw [e1] at e
              simp only [Option.some.injEq, Prod.mk.injEq] at e
              exact joinS _ st st' hb hs ⟨fs, e.1.symm, e3⟩ (zero s2 (by omega)) hu
            · rw [if_neg hs0] at e
              have hmb : (if bAmt ≤ sAmt then bAmt else sAmt) = min bAmt sAmt := by split <;> omega
              have hms : (if sAmt ≤ bAmt then sAmt else bAmt) = min bAmt sAmt := by split <;> omega
              rw [hmb, hms] at e
              have hmpos : 0 < min bAmt sAmt := by omega
              obtain ⟨fb, f1, f2, f3, f4, f5, _⟩ := distributeToTick_spec hp st bt (min bAmt sAmt) b1 b2 (by omega) (by omega)
              rw [f1] at e
              simp only at e
              have hdisj : ∀ q ∈ sk.orders, applyFills st.heap fb q = st.heap q := by
                intro q hq
                apply applyFills_other
                intro f hf e
                have h1 := b3 _ (f2.sub f hf)
                have h2 := s3 _ hq
                rw [e, h2] at h1; cases h1
              have hks : HeapOk (applyFills st.heap fb) sk.orders := f2.heapOk hp s2
              have hsA' : totalMatchable (applyFills st.heap fb) sk.orders p = sAmt := by
                rw [totalMatchable_congr hdisj]
              obtain ⟨fsl, g1, g2, g3, g4, g5, _⟩ := distributeToTick_spec hp (st.run fb) sk (min bAmt sAmt) s1 hks (by omega)
                (by show _ ≤ totalMatchable (applyFills st.heap fb) sk.orders p; rw [hsA']; omega)
              rw [g1] at e
              simp only at e
              rw [run_append] at e
              have hexB : bAmt ≤ sAmt → ∀ q ∈ bt.orders, matchableAmount ((st.run (fb ++ fsl)).heap q) p = 0 := by
                intro hle q hq
                have h0 := indep_full hp b2 f2 (by rw [f4 hmpos (Or.inl b3)]; omega) q hq
                have : (st.run (fb ++ fsl)).heap q = applyFills st.heap fb q := by
                  show applyFills st.heap (fb ++ fsl) q = _
                  rw [applyFills_append]
                  apply applyFills_other
                  intro f hf e
                  have h1 := s3 _ (g2.sub f hf)
                  have h2 := b3 _ hq
                  rw [e, h2] at h1; cases h1
                rw [this]; exact h0
              have hexS : sAmt ≤ bAmt → ∀ q ∈ sk.orders, matchableAmount ((st.run (fb ++ fsl)).heap q) p = 0 := by
                intro hle q hq
                have h0 := indep_full hp hks g2 (by
                  show totalMatchable (applyFills st.heap fb) sk.orders p ≤ _
                  rw [hsA', g4 hmpos (Or.inr hp1)]; omega) q hq
                show matchableAmount (applyFills st.heap (fb ++ fsl) q) p = 0
                rw [applyFills_append]; exact h0
              have hgood : Good st.heap (fb ++ fsl) := by
                apply good_step hp hmpos (B := bt.orders) (S := sk.orders) _ _ f2 g2 (f4 hmpos (Or.inl b3)) g3 (fun h1 => g4 hmpos (Or.inr h1))
                · intro q hq; exact ⟨b3 q hq, by rw [b4 q hq]; exact hpb⟩
                · intro q hq; exact ⟨s3 q hq, by rw [s4 q hq]; exact hps⟩
              have hb2 : SideOk (st.run (fb ++ fsl)).heap .buy (bt :: bs) := hb.applyGood hgood.valid
              have hs2 : SideOk (st.run (fb ++ fsl)).heap .sell (sk :: ss) := hs.applyGood hgood.valid
              by_cases c1 : bAmt ≤ sAmt
              · rw [if_pos c1] at e
                by_cases c2 : sAmt ≤ bAmt
                · rw [if_pos c2] at e
                  obtain ⟨fs, x, y, e1, _, e3, _⟩ := matchLoop_spec dir n (st.run (fb ++ fsl)) bs ss p true hb2.tail hs2.tail
                  have hu := ih _ bs ss p true st' mp' m' hb2.tail hs2.tail sb'.2 ss'.2 (fun t ht => hone t (List.mem_cons_of_mem _ ht))
                    (by omega) e
                  rw [e1] at e
                  simp only [Option.some.injEq, Prod.mk.injEq] at e
                  refine joinB _ _ st' hb2 hs2 ⟨fs, e.1.symm, fun f hf => (e3 f hf).imp id (fun h => by
                    rw [List.flatMap_cons]; exact List.mem_append_right _ h)⟩ (hexB c1) ?_
                  exact joinS _ _ st' hb2.tail hs2 ⟨fs, e.1.symm, e3⟩ (hexS c2) hu
                · rw [if_neg c2] at e
                  obtain ⟨fs, x, y, e1, _, e3, _⟩ := matchLoop_spec dir n (st.run (fb ++ fsl)) bs (sk :: ss) p true hb2.tail hs2
                  have hu := ih _ bs (sk :: ss) p true st' mp' m' hb2.tail hs2 sb'.2 sss hone
                    (by simp only [List.length_cons]; omega) e
                  rw [e1] at e
                  simp only [Option.some.injEq, Prod.mk.injEq] at e
                  exact joinB _ _ st' hb2 hs2 ⟨fs, e.1.symm, e3⟩ (hexB c1) hu
              · rw [if_neg c1] at e
                have c2 : sAmt ≤ bAmt := by omega
                rw [if_pos c2] at e
                obtain ⟨fs, x, y, e1, _, e3, _⟩ := matchLoop_spec dir n (st.run (fb ++ fsl)) (bt :: bs) ss p true hb2 hs2.tail
                have hu := ih _ (bt :: bs) ss p true st' mp' m' hb2 hs2.tail sb ss'.2 (fun t ht => hone t (List.mem_cons_of_mem _ ht))
                  (by simp only [List.length_cons]; omega) e
                rw [e1] at e
                simp only [Option.some.injEq, Prod.mk.injEq] at e
                exact joinS _ _ st' hb2 hs2 ⟨fs, e.1.symm, e3⟩ (hexS c2) hu

/-- Orders left out of the book stay without anything matchable, so it is enough that the book is uncrossed. -/
theorem book_uncrossed {h : Heap} {ps : List Nat} {fs : List Fill}
    (hsub : ∀ f ∈ fs, f.ptr ∈ (newOrderBook h ps).buys.flatMap (·.orders) ∨ f.ptr ∈ (newOrderBook h ps).sells.flatMap (·.orders))
    (hu : Uncrossed (applyFills h fs) (newOrderBook h ps).buys (newOrderBook h ps).sells) {p q : Nat} (hp : p ∈ ps) (hq : q ∈ ps)
    (hb : (h p).dir = .buy) (hs : (h q).dir = .sell)
    (mp : 0 < matchableAmount (applyFills h fs p) (h p).price) (mq : 0 < matchableAmount (applyFills h fs q) (h q).price) :
    (h p).price < (h q).price := by
  have hk := bookOk_new h ps
  have inBook : ∀ d x, x ∈ ps → (h x).dir = d → 0 < matchableAmount (applyFills h fs x) (h x).price → x ∈ eligible h d ps := by
    intro d x hx hd hm
    by_contra hc
    have h0 : ¬ 0 < matchableAmount (h x) (h x).price := by
      intro h0; exact hc (List.mem_filter.2 ⟨hx, by simp [hd, h0]⟩)
    have hno : ∀ d', x ∉ eligible h d' ps := by
      intro d' hm'
      have := (List.mem_filter.1 hm').2
      simp at this
      exact h0 this.2
    rw [applyFills_other] at hm
    · exact h0 hm
    · intro f hf e
      rcases hsub f hf with h1 | h1
      · exact hno .buy (by rw [← e]; exact hk.buys.perm.mem_iff.1 h1)
      · exact hno .sell (by rw [← e]; exact hk.sells.perm.mem_iff.1 h1)
  have := hu p (hk.buys.perm.mem_iff.2 (inBook .buy p hp hb mp)) q (hk.sells.perm.mem_iff.2 (inBook .sell q hq hs mq))
  rw [applyFills_price, applyFills_price] at this
  exact this mp mq

end Verif.Amm

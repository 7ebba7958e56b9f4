import Mathlib.Data.List.TakeWhile
import Verif.Proofs.Distribute
import Verif.Proofs.OrderBook
/-! The matching functions (x/dex/amm/match.go:109-299). -/
namespace Verif.Amm
open Verif

/-- One side of a book on a heap. -/
structure SideOk (h : Heap) (d : Dir) (ts : List Tick) : Prop where
  nodup : (ts.flatMap (·.orders)).Nodup
  ok : HeapOk h (ts.flatMap (·.orders))
  dirs : ∀ p ∈ ts.flatMap (·.orders), (h p).dir = d
  prices : ∀ t ∈ ts, ∀ p ∈ t.orders, (h p).price = t.price
  pos : ∀ t ∈ ts, 0 < t.price

theorem SideOk.tail {h : Heap} {d : Dir} {t : Tick} {ts : List Tick} (hs : SideOk h d (t :: ts)) : SideOk h d ts := by
  obtain ⟨a, b, c, e, f⟩ := hs
  rw [List.flatMap_cons] at a b c
  rw [List.nodup_append] at a
  exact ⟨a.2.1, fun p hp => b p (List.mem_append_right _ hp), fun p hp => c p (List.mem_append_right _ hp),
    fun t' ht => e t' (List.mem_cons_of_mem _ ht), fun t' ht => f t' (List.mem_cons_of_mem _ ht)⟩

theorem SideOk.head {h : Heap} {d : Dir} {t : Tick} {ts : List Tick} (hs : SideOk h d (t :: ts)) :
    t.orders.Nodup ∧ HeapOk h t.orders ∧ (∀ p ∈ t.orders, (h p).dir = d) ∧ (∀ p ∈ t.orders, (h p).price = t.price) ∧
    0 < t.price ∧ ∀ p ∈ t.orders, p ∉ ts.flatMap (·.orders) := by
  obtain ⟨a, b, c, e, f⟩ := hs
  rw [List.flatMap_cons] at a b c
  rw [List.nodup_append] at a
  exact ⟨a.1, fun p hp => b p (List.mem_append_left _ hp), fun p hp => c p (List.mem_append_left _ hp),
    e t (by simp), f t (by simp), fun p h1 h2 => a.2.2 p h1 p h2 rfl⟩

theorem SideOk.apply {h : Heap} {d : Dir} {ts : List Tick} (hs : SideOk h d ts) {price : Int} (hp : 0 < price)
    {ps : List Nat} {fs : List Fill} (hi : Indep h price ps fs) : SideOk (applyFills h fs) d ts :=
  ⟨hs.nodup, hi.heapOk hp hs.ok, fun p hp' => by rw [applyFills_dir]; exact hs.dirs p hp',
   fun t ht p hp' => by rw [applyFills_price]; exact hs.prices t ht p hp', hs.pos⟩

theorem ticksTotal_eq (h : Heap) (ts : List Tick) (price : Int) :
    ticksTotal h ts price = totalMatchable h (ts.flatMap (·.orders)) price := by
  unfold ticksTotal
  rw [foldl_add_eq]
  induction ts with
  | nil => simp [totalMatchable]
  | cons t ts ih =>
    rw [List.map_cons, List.sum_cons, List.flatMap_cons, totalMatchable_append]
    omega

theorem distributeToTicks_spec {price : Int} (hp : 0 < price) : ∀ (ts : List Tick) (st : MState) (rem : Int),
    (ts.flatMap (·.orders)).Nodup → HeapOk st.heap (ts.flatMap (·.orders)) → 0 ≤ rem →
    ∃ fs, distributeToTicks st ts rem price = some (st.run fs) ∧ Indep st.heap price (ts.flatMap (·.orders)) fs ∧
      amtSum fs ≤ rem ∧
      (0 < rem → rem ≤ totalMatchable st.heap (ts.flatMap (·.orders)) price →
        NoDust st.heap (ts.flatMap (·.orders)) price → amtSum fs = rem) ∧
      (∀ (pre : List Tick) (t : Tick) (post : List Tick), ts = pre ++ t :: post →
        ∀ f ∈ fs, f.ptr ∈ post.flatMap (·.orders) →
        ∀ q ∈ t.orders, applyFills st.heap fs q = filledOrder (st.heap q) (matchableAmount (st.heap q) price) price ∧
          matchableAmount (applyFills st.heap fs q) price = 0) := by
  intro ts
  induction ts with
  | nil =>
    intro st rem _ _ hr
    refine ⟨[], by simp [distributeToTicks], Indep.nil _ _ _, by simp [amtSum]; omega, ?_, by simp⟩
    intro h1 h2; simp [totalMatchable] at h2; omega
  | cons t ts ih =>
    intro st rem hnd hk hr
    rw [List.flatMap_cons] at hnd hk
    rw [List.nodup_append] at hnd
    obtain ⟨nd1, nd2, nd3⟩ := hnd
    have hk1 : HeapOk st.heap t.orders := fun p hp' => hk p (List.mem_append_left _ hp')
    have hk2 : HeapOk st.heap (ts.flatMap (·.orders)) := fun p hp' => hk p (List.mem_append_right _ hp')
    have hdis : ∀ p ∈ t.orders, p ∉ ts.flatMap (·.orders) := fun p h1 h2 => nd3 p h1 p h2 rfl
    have ht1 := totalMatchable_nonneg hp hk1
    have ht2 := totalMatchable_nonneg hp hk2
    have hlater : ∀ (pre : List Tick) (t' : Tick) (post : List Tick), t :: ts = pre ++ t' :: post →
        ∀ p ∈ t.orders, p ∉ post.flatMap (·.orders) := by
      intro pre t' post heq p hp1 hp2
      apply hdis p hp1
      cases pre with
      | nil =>
        simp only [List.nil_append, List.cons.injEq] at heq
        rw [heq.2]; exact hp2
      | cons p0 pre =>
        simp only [List.cons_append, List.cons.injEq] at heq
        rw [heq.2, List.flatMap_append, List.flatMap_cons]
        exact List.mem_append_right _ (List.mem_append_right _ hp2)
    simp only [List.flatMap_cons, totalMatchable_append]
    unfold distributeToTicks
    simp only
    split
    · rename_i hle
      rw [fulfillOrders_eq st t.orders price nd1]
      simp only
      set ff := fulfillFills st.heap t.orders price with hff
      have hin := fulfillFills_indep st.heap t.orders price nd1
      rw [← hff] at hin
      have hsum := fulfillFills_sum hp hk1
      rw [← hff] at hsum
      have hexh : ∀ q ∈ t.orders, applyFills st.heap ff q = filledOrder (st.heap q) (matchableAmount (st.heap q) price) price ∧
          matchableAmount (applyFills st.heap ff q) price = 0 := by
        intro q hq
        rw [hff]
        exact ⟨fulfillFills_full hp hk1 nd1 q hq, fulfillFills_exhaust hp hk1 nd1 q hq⟩
      split
      · rename_i hz
        refine ⟨ff, rfl, ⟨hin.nodup, fun f hf => List.mem_append_left _ (hin.sub f hf), hin.price_eq, hin.pos, hin.le⟩,
          by omega, fun _ _ _ => by omega, ?_⟩
        intro pre g' post heq f hf hfp q hq
        exact absurd hfp (hlater pre g' post heq _ (hin.sub f hf))
      · rename_i hz
        have hk2' : HeapOk (st.run ff).heap (ts.flatMap (·.orders)) := hin.heapOk hp hk2
        have hoth : ∀ p ∈ ts.flatMap (·.orders), (st.run ff).heap p = st.heap p := by
          intro p hp'
          apply applyFills_other
          intro f hf e
          exact hdis _ (hin.sub f hf) (e ▸ hp')
        obtain ⟨fs, e1, e2, e3, e4, e6⟩ := ih (st.run ff) (rem - totalMatchable st.heap t.orders price) nd2 hk2' (by omega)
        rw [totalMatchable_congr hoth] at e4
        refine ⟨ff ++ fs, by rw [e1, run_append], ?_, ?_, ?_, ?_⟩
        · exact Indep.append hin e2 hdis (fun p hp' => List.mem_append_left _ hp')
            (fun p hp' => List.mem_append_right _ hp')
        · rw [amtSum_append]; omega
        · intro h1 h2 h3
          rw [amtSum_append, e4 (by omega) (by omega)
            ((h3.mono (fun q hq => List.mem_append_right _ hq)).congr (fun p => applyFills_dir _ _ _))]
          omega
        · intro pre g' post heq f hf hfp q hq
          rw [applyFills_append]
          have hl := hlater pre g' post heq
          cases pre with
          | nil =>
            simp only [List.nil_append, List.cons.injEq] at heq
            obtain ⟨rfl, rfl⟩ := heq
            rw [applyFills_other]
            · exact hexh q hq
            · intro f' hf' e
              exact hdis q hq (e ▸ e2.sub f' hf')
          | cons p0 pre =>
            simp only [List.cons_append, List.cons.injEq] at heq
            rcases List.mem_append.1 hf with hf' | hf'
            · exact absurd hfp (hl _ (hin.sub f hf'))
            · have hq2 : q ∈ ts.flatMap (·.orders) := by
                rw [heq.2]
                exact List.mem_flatMap.2 ⟨g', by simp, hq⟩
              have := e6 pre g' post heq.2 f hf' hfp q hq
              rwa [hoth q hq2] at this
    · rename_i hlt
      obtain ⟨fs, e1, e2, e3, e4, _, _⟩ := distributeToTick_spec hp st t rem nd1 hk1 hr (by omega)
      refine ⟨fs, e1, ⟨e2.nodup, fun f hf => List.mem_append_left _ (e2.sub f hf), e2.price_eq, e2.pos, e2.le⟩,
        e3, fun h1 _ h3 => e4 h1 (h3.mono (fun q hq => List.mem_append_left _ hq)), ?_⟩
      intro pre g' post heq f hf hfp q hq
      exact absurd hfp (hlater pre g' post heq _ (e2.sub f hf))

/-- Ticks after a prefix that can absorb the amount are not touched. -/
theorem distributeToTicks_prefix {price : Int} (hp : 0 < price) (post : List Tick) : ∀ (pre : List Tick) (st : MState)
    (rem : Int), (pre.flatMap (·.orders)).Nodup → HeapOk st.heap (pre.flatMap (·.orders)) → 0 < rem →
    rem ≤ totalMatchable st.heap (pre.flatMap (·.orders)) price →
    distributeToTicks st (pre ++ post) rem price = distributeToTicks st pre rem price := by
  intro pre
  induction pre with
  | nil => intro st rem _ _ h1 h2; simp [totalMatchable] at h2; omega
  | cons t ts ih =>
    intro st rem hnd hk h1 h2
    rw [List.flatMap_cons] at hnd hk
    rw [List.nodup_append] at hnd
    obtain ⟨nd1, nd2, nd3⟩ := hnd
    have hk2 : HeapOk st.heap (ts.flatMap (·.orders)) := fun p hp' => hk p (List.mem_append_right _ hp')
    have hdis : ∀ p ∈ t.orders, p ∉ ts.flatMap (·.orders) := fun p h1 h2 => nd3 p h1 p h2 rfl
    rw [List.flatMap_cons, totalMatchable_append] at h2
    rw [List.cons_append]
    unfold distributeToTicks
    simp only
    split
    · rw [fulfillOrders_eq st t.orders price nd1]
      simp only
      split
      · rfl
      · have hin := fulfillFills_indep st.heap t.orders price nd1
        have hc : totalMatchable (st.run (fulfillFills st.heap t.orders price)).heap (ts.flatMap (·.orders)) price =
            totalMatchable st.heap (ts.flatMap (·.orders)) price := by
          apply totalMatchable_congr
          intro p hp'
          apply applyFills_other
          intro f hf e
          exact hdis _ (hin.sub f hf) (e ▸ hp')
        exact ih _ _ nd2 (hin.heapOk hp hk2) (by omega) (by rw [hc]; omega)
    · rfl

/-! ### Finding the matchable amount -/

theorem ticksTotal_append (h : Heap) (a b : List Tick) (price : Int) :
    ticksTotal h (a ++ b) price = ticksTotal h a price + ticksTotal h b price := by
  simp only [ticksTotal_eq, List.flatMap_append, totalMatchable_append]

theorem ticksTotal_nonneg {h : Heap} {ts : List Tick} {price : Int} (hp : 0 < price)
    (hk : HeapOk h (ts.flatMap (·.orders))) : 0 ≤ ticksTotal h ts price := by
  rw [ticksTotal_eq]; exact totalMatchable_nonneg hp hk

theorem ticksTotal_dropLast {h : Heap} {ts : List Tick} {price : Int} {t : Tick} (hl : ts.getLast? = some t) :
    ticksTotal h ts price = ticksTotal h ts.dropLast price + totalMatchable h t.orders price := by
  have : ts = ts.dropLast ++ [t] := by
    rw [List.getLast?_eq_some_iff] at hl
    obtain ⟨ys, rfl⟩ := hl
    simp
  conv_lhs => rw [this]
  rw [ticksTotal_append]
  simp [ticksTotal]

/-- A side's step keeps the minimum of the totals, or drops a sell tick whose share is worth nothing. -/
theorem sideStep_spec {h : Heap} {isSell : Bool} {side : List Tick} {other price : Int} {m : Int} {side' : List Tick}
    {d : Bool} (hs : sideStep h isSell side other price = some (m, side', d)) :
    m = min (ticksTotal h side price) other ∧
    (d = false → side' = side ∧ ∃ t, side.getLast? = some t ∧
        ticksTotal h side price - totalMatchable h t.orders price < m ∧
        (isSell = true → quoteFloor price (m - (ticksTotal h side price - totalMatchable h t.orders price)) ≠ 0)) ∧
    (d = true → side' = side.dropLast ∧ 2 ≤ side.length ∧ ∃ t, side.getLast? = some t ∧
        (m ≤ ticksTotal h side' price ∨ (isSell = true ∧
          quoteFloor price (m - (ticksTotal h side price - totalMatchable h t.orders price)) = 0))) := by
  unfold sideStep at hs
  split at hs
  · cases hs
  · rename_i t ht
    simp only at hs
    have hmin : (if isSell = true then min other (ticksTotal h side price) else min (ticksTotal h side price) other)
        = min (ticksTotal h side price) other := by
      split
      · exact min_comm _ _
      · rfl
    rw [hmin] at hs
    have hdl := ticksTotal_dropLast (h := h) (price := price) ht
    split at hs
    · rename_i hc
      split at hs
      · cases hs
      · rename_i hlen
        simp only [Option.some.injEq, Prod.mk.injEq] at hs
        obtain ⟨rfl, rfl, rfl⟩ := hs
        refine ⟨rfl, by simp, fun _ => ⟨rfl, ?_, t, ht, ?_⟩⟩
        · have : side.length ≠ 0 := by
            intro e
            rw [List.length_eq_zero_iff] at e
            rw [e] at ht; cases ht
          omega
        · rcases hc with hc | hc
          · left; omega
          · right; exact hc
    · rename_i hc
      simp only [Option.some.injEq, Prod.mk.injEq] at hs
      obtain ⟨rfl, rfl, rfl⟩ := hs
      refine ⟨rfl, fun _ => ⟨rfl, t, ht, ?_, ?_⟩, by simp⟩
      · by_contra hcc; exact hc (Or.inl (by omega))
      · intro hsell e; exact hc (Or.inr ⟨hsell, e⟩)

/-- When a side's step returns "not found", the minimum of the totals is not positive (given no dust). -/
theorem sideStep_none {h : Heap} {isSell : Bool} {side : List Tick} {other price : Int}
    (hs : sideStep h isSell side other price = none) (hne : side ≠ []) (hp1 : Dec.one ≤ price) :
    min (ticksTotal h side price) other ≤ 0 := by
  unfold sideStep at hs
  split at hs
  · rename_i hl
    rw [List.getLast?_eq_none_iff] at hl; exact absurd hl hne
  · rename_i t ht
    simp only at hs
    have hmin : (if isSell = true then min other (ticksTotal h side price) else min (ticksTotal h side price) other)
        = min (ticksTotal h side price) other := by
      split
      · exact min_comm _ _
      · rfl
    rw [hmin] at hs
    have hdl := ticksTotal_dropLast (h := h) (price := price) ht
    split at hs
    · rename_i hc
      split at hs
      · rename_i hlen
        have hd : side.dropLast = [] := by
          rw [← List.length_eq_zero_iff, List.length_dropLast]; omega
        rw [hd] at hdl
        simp [ticksTotal] at hdl
        rcases hc with hc | ⟨_, hc⟩
        · simp [ticksTotal] at hc ⊢; omega
        · by_contra hcc
          have := quoteFloor_pos_of_one_le (a := min (ticksTotal h side price) other -
            (ticksTotal h side price - totalMatchable h t.orders price)) hp1 (by simp [ticksTotal] at hcc ⊢; omega)
          omega
      · cases hs
    · cases hs

theorem findLoop_spec {h : Heap} {price : Int} (hp : 0 < price) : ∀ (fuel : Nat) (bs ss : List Tick) (m : Int),
    HeapOk h (bs.flatMap (·.orders)) → HeapOk h (ss.flatMap (·.orders)) →
    findLoop h price fuel bs ss = some m →
    0 < m ∧ m ≤ ticksTotal h bs price ∧ m ≤ ticksTotal h ss price ∧
    (Dec.one ≤ price → m = min (ticksTotal h bs price) (ticksTotal h ss price)) := by
  intro fuel
  induction fuel with
  | zero => intro bs ss m _ _ h1; simp [findLoop] at h1
  | succ n ih =>
    intro bs ss m hkb hks hf
    unfold findLoop at hf
    split at hf
    · cases hf
    · rename_i m1 bs' d1 hb
      split at hf
      · cases hf
      · rename_i m2 ss' d2 hs
        obtain ⟨b1, b2, b3⟩ := sideStep_spec hb
        obtain ⟨s1, s2, s3⟩ := sideStep_spec hs
        have hbsub : ∀ p ∈ bs'.flatMap (·.orders), p ∈ bs.flatMap (·.orders) := by
          intro p hp'
          obtain ⟨t, ht, hpt⟩ := List.mem_flatMap.1 hp'
          refine List.mem_flatMap.2 ⟨t, ?_, hpt⟩
          cases d1 with
          | false => rw [(b2 rfl).1] at ht; exact ht
          | true => rw [(b3 rfl).1] at ht; exact (List.dropLast_sublist _).subset ht
        have hssub : ∀ p ∈ ss'.flatMap (·.orders), p ∈ ss.flatMap (·.orders) := by
          intro p hp'
          obtain ⟨t, ht, hpt⟩ := List.mem_flatMap.1 hp'
          refine List.mem_flatMap.2 ⟨t, ?_, hpt⟩
          cases d2 with
          | false => rw [(s2 rfl).1] at ht; exact ht
          | true => rw [(s3 rfl).1] at ht; exact (List.dropLast_sublist _).subset ht
        have hbt : ticksTotal h bs' price ≤ ticksTotal h bs price ∧
            (ticksTotal h bs' price = ticksTotal h bs price ∨ m1 ≤ ticksTotal h bs' price) := by
          cases d1 with
          | false => rw [(b2 rfl).1]; exact ⟨le_refl _, Or.inl rfl⟩
          | true =>
            obtain ⟨e, _, t, ht, hc⟩ := b3 rfl
            have hdl := ticksTotal_dropLast (h := h) (price := price) ht
            have ht0 : 0 ≤ totalMatchable h t.orders price := by
              apply totalMatchable_nonneg hp
              intro p hp'
              exact hkb p (List.mem_flatMap.2 ⟨t, List.mem_of_getLast? ht, hp'⟩)
            rw [e]
            refine ⟨by omega, Or.inr ?_⟩
            rcases hc with hc | hc
            · rw [← e]; exact hc
            · cases hc.1
        have hst : ticksTotal h ss' price ≤ ticksTotal h ss price ∧
            (Dec.one ≤ price → ticksTotal h ss' price = ticksTotal h ss price ∨ m2 ≤ ticksTotal h ss' price) := by
          cases d2 with
          | false => rw [(s2 rfl).1]; exact ⟨le_refl _, fun _ => Or.inl rfl⟩
          | true =>
            obtain ⟨e, _, t, ht, hc⟩ := s3 rfl
            have hdl := ticksTotal_dropLast (h := h) (price := price) ht
            have ht0 : 0 ≤ totalMatchable h t.orders price := by
              apply totalMatchable_nonneg hp
              intro p hp'
              exact hks p (List.mem_flatMap.2 ⟨t, List.mem_of_getLast? ht, hp'⟩)
            rw [e]
            refine ⟨by omega, fun h1 => Or.inr ?_⟩
            rcases hc with hc | hc
            · rw [← e]; exact hc
            · by_contra hcc
              have := quoteFloor_pos_of_one_le (a := m2 - (ticksTotal h ss price - totalMatchable h t.orders price)) h1
                (by omega)
              omega
        split at hf
        · rename_i hd
          obtain ⟨rfl, rfl⟩ := hd
          simp only [Option.some.injEq] at hf
          subst hf
          obtain ⟨e1, _⟩ := b2 rfl
          obtain ⟨e2, t, ht, hlt, _⟩ := s2 rfl
          rw [e1] at s1
          have hdl := ticksTotal_dropLast (h := h) (price := price) ht
          have hnn : 0 ≤ ticksTotal h ss.dropLast price := by
            apply ticksTotal_nonneg hp
            intro p hp'
            obtain ⟨t', ht', hpt⟩ := List.mem_flatMap.1 hp'
            exact hks p (List.mem_flatMap.2 ⟨t', (List.dropLast_sublist _).subset ht', hpt⟩)
          refine ⟨by omega, by omega, by omega, fun _ => by rw [s1, min_comm]⟩
        · obtain ⟨i1, i2, i3, i4⟩ := ih bs' ss' m (fun p hp' => hkb p (hbsub p hp')) (fun p hp' => hks p (hssub p hp')) hf
          refine ⟨i1, by omega, by omega, fun h1 => ?_⟩
          have := i4 h1
          have := hst.2 h1
          omega

theorem findLoop_none {h : Heap} {price : Int} (hp1 : Dec.one ≤ price) : ∀ (fuel : Nat) (bs ss : List Tick),
    HeapOk h (bs.flatMap (·.orders)) → HeapOk h (ss.flatMap (·.orders)) → bs ≠ [] → ss ≠ [] →
    bs.length + ss.length < fuel →
    findLoop h price fuel bs ss = none → min (ticksTotal h bs price) (ticksTotal h ss price) ≤ 0 := by
  have hp : 0 < price := lt_of_lt_of_le one_pos hp1
  intro fuel
  induction fuel with
  | zero => intro bs ss _ _ _ _ h1; omega
  | succ n ih =>
    intro bs ss hkb hks hbne hsne hlen hf
    unfold findLoop at hf
    split at hf
    · rename_i hb; exact sideStep_none hb hbne hp1
    · rename_i m1 bs' d1 hb
      obtain ⟨b1, b2, b3⟩ := sideStep_spec hb
      have hbt : (d1 = false → bs' = bs) ∧ (d1 = true → bs'.length + 1 = bs.length ∧ bs' ≠ []) ∧
          min (ticksTotal h bs' price) (ticksTotal h ss price) = min (ticksTotal h bs price) (ticksTotal h ss price) ∧
          (∀ p ∈ bs'.flatMap (·.orders), p ∈ bs.flatMap (·.orders)) := by
        cases d1 with
        | false =>
          have e := (b2 rfl).1
          refine ⟨fun _ => e, by simp, by rw [e], by rw [e]; simp⟩
        | true =>
          obtain ⟨e, hl, t, ht, hc⟩ := b3 rfl
          have hdl := ticksTotal_dropLast (h := h) (price := price) ht
          have ht0 : 0 ≤ totalMatchable h t.orders price := by
            apply totalMatchable_nonneg hp
            intro p hp'
            exact hkb p (List.mem_flatMap.2 ⟨t, List.mem_of_getLast? ht, hp'⟩)
          refine ⟨by simp, fun _ => ⟨by rw [e, List.length_dropLast]; omega, ?_⟩, ?_, ?_⟩
          · intro e2
            rw [e, ← List.length_eq_zero_iff, List.length_dropLast] at e2
            omega
          · rcases hc with hc | hc
            · rw [e] at hc ⊢; omega
            · cases hc.1
          · rw [e]
            intro p hp'
            obtain ⟨t', ht', hpt⟩ := List.mem_flatMap.1 hp'
            exact List.mem_flatMap.2 ⟨t', (List.dropLast_sublist _).subset ht', hpt⟩
      split at hf
      · rename_i hs
        have := sideStep_none hs hsne hp1
        have := hbt.2.2.1
        omega
      · rename_i m2 ss' d2 hs
        obtain ⟨s1, s2, s3⟩ := sideStep_spec hs
        split at hf
        · cases hf
        · rename_i hd
          have hst : (d2 = false → ss' = ss) ∧ (d2 = true → ss'.length + 1 = ss.length ∧ ss' ≠ []) ∧
              min (ticksTotal h bs' price) (ticksTotal h ss' price) = min (ticksTotal h bs' price) (ticksTotal h ss price) ∧
              (∀ p ∈ ss'.flatMap (·.orders), p ∈ ss.flatMap (·.orders)) := by
            cases d2 with
            | false =>
              have e := (s2 rfl).1
              refine ⟨fun _ => e, by simp, by rw [e], by rw [e]; simp⟩
            | true =>
              obtain ⟨e, hl, t, ht, hc⟩ := s3 rfl
              have hdl := ticksTotal_dropLast (h := h) (price := price) ht
              have ht0 : 0 ≤ totalMatchable h t.orders price := by
                apply totalMatchable_nonneg hp
                intro p hp'
                exact hks p (List.mem_flatMap.2 ⟨t, List.mem_of_getLast? ht, hp'⟩)
              refine ⟨by simp, fun _ => ⟨by rw [e, List.length_dropLast]; omega, ?_⟩, ?_, ?_⟩
              · intro e2
                rw [e, ← List.length_eq_zero_iff, List.length_dropLast] at e2
                omega
              · rcases hc with hc | hc
                · rw [e] at hc ⊢; omega
                · by_contra hcc
                  have := quoteFloor_pos_of_one_le (a := m2 - (ticksTotal h ss price - totalMatchable h t.orders price)) hp1
                    (by rw [e] at hcc; omega)
                  omega
              · rw [e]
                intro p hp'
                obtain ⟨t', ht', hpt⟩ := List.mem_flatMap.1 hp'
                exact List.mem_flatMap.2 ⟨t', (List.dropLast_sublist _).subset ht', hpt⟩
          have hbne' : bs' ≠ [] := by
            cases d1 with
            | false => rw [hbt.1 rfl]; exact hbne
            | true => exact (hbt.2.1 rfl).2
          have hsne' : ss' ≠ [] := by
            cases d2 with
            | false => rw [hst.1 rfl]; exact hsne
            | true => exact (hst.2.1 rfl).2
          have hl : bs'.length + ss'.length < n := by
            cases d1 <;> cases d2
            · exact absurd ⟨rfl, rfl⟩ hd
            · have := (hst.2.1 rfl).1; rw [hbt.1 rfl]; omega
            · have := (hbt.2.1 rfl).1; rw [hst.1 rfl]; omega
            · have := (hbt.2.1 rfl).1; have := (hst.2.1 rfl).1; omega
          have := ih bs' ss' (fun p hp' => hkb p (hbt.2.2.2 p hp')) (fun p hp' => hks p (hst.2.2.2 p hp')) hbne' hsne' hl hf
          have := hbt.2.2.1
          have := hst.2.2.1
          omega

/-- More fuel than ticks changes nothing: the Go loop terminates. -/
theorem findLoop_fuel {h : Heap} {price : Int} : ∀ (fuel : Nat) (bs ss : List Tick), bs.length + ss.length < fuel →
    findLoop h price (fuel + 1) bs ss = findLoop h price fuel bs ss := by
  intro fuel
  induction fuel with
  | zero => intro bs ss h; omega
  | succ n ih =>
    intro bs ss hlen
    rw [findLoop]
    conv_rhs => rw [findLoop]
    split
    · rfl
    · rename_i m1 bs' d1 hb
      split
      · rfl
      · rename_i m2 ss' d2 hs
        split
        · rfl
        · rename_i hd
          apply ih
          obtain ⟨_, b2, b3⟩ := sideStep_spec hb
          obtain ⟨_, s2, s3⟩ := sideStep_spec hs
          cases d1 <;> cases d2
          · exact absurd ⟨rfl, rfl⟩ hd
          · obtain ⟨e, hl, _⟩ := s3 rfl; rw [e, List.length_dropLast, (b2 rfl).1]; omega
          · obtain ⟨e, hl, _⟩ := b3 rfl; rw [e, List.length_dropLast, (s2 rfl).1]; omega
          · obtain ⟨e, hl, _⟩ := b3 rfl; obtain ⟨e', hl', _⟩ := s3 rfl
            rw [e, e', List.length_dropLast, List.length_dropLast]; omega

/-! ### Valid sequences of fills -/

/-- Every fill is positive, affordable at its moment, at a positive price within the order's limit. -/
inductive ValidSeq : Heap → List Fill → Prop where
  | nil (h) : ValidSeq h []
  | cons (h f fs) : 0 < f.amt → 0 < f.price → f.amt ≤ matchableAmount (h f.ptr) f.price →
      (match (h f.ptr).dir with | .buy => f.price ≤ (h f.ptr).price | .sell => (h f.ptr).price ≤ f.price) →
      ValidSeq (applyFill h f) fs → ValidSeq h (f :: fs)

theorem ValidSeq.append {h : Heap} {fs gs : List Fill} (h1 : ValidSeq h fs) (h2 : ValidSeq (applyFills h fs) gs) :
    ValidSeq h (fs ++ gs) := by
  induction h1 with
  | nil h => simpa using h2
  | cons h f fs a b c d _ ih => exact ValidSeq.cons h f _ a b c d (ih h2)

theorem Indep.validSeq {h : Heap} {price : Int} {ps : List Nat} {fs : List Fill} (hi : Indep h price ps fs)
    (hp : 0 < price)
    (hlim : ∀ f ∈ fs, match (h f.ptr).dir with | .buy => price ≤ (h f.ptr).price | .sell => (h f.ptr).price ≤ price) :
    ValidSeq h fs := by
  induction fs generalizing h with
  | nil => exact ValidSeq.nil h
  | cons f fs ih =>
    obtain ⟨nd, sub, pe, pos, le⟩ := hi
    rw [List.map_cons, List.nodup_cons] at nd
    have hfp : f.price = price := pe f (by simp)
    have hne : ∀ g ∈ fs, g.ptr ≠ f.ptr := fun g hg e => nd.1 (e ▸ List.mem_map_of_mem hg)
    have hsame : ∀ g ∈ fs, applyFill h f g.ptr = h g.ptr := by
      intro g hg; unfold applyFill; rw [if_neg (hne g hg)]
    refine ValidSeq.cons h f fs (pos f (by simp)) (by omega) (by rw [hfp]; exact le f (by simp)) (by rw [hfp]; exact hlim f (by simp)) ?_
    apply ih
    · exact ⟨nd.2, fun g hg => sub g (by simp [hg]), fun g hg => pe g (by simp [hg]), fun g hg => pos g (by simp [hg]),
        fun g hg => by rw [hsame g hg]; exact le g (by simp [hg])⟩
    · intro g hg; rw [hsame g hg]; exact hlim g (by simp [hg])

theorem ValidSeq.heapOk {h : Heap} {fs : List Fill} (hv : ValidSeq h fs) {ps : List Nat} (hk : HeapOk h ps) :
    HeapOk (applyFills h fs) ps := by
  induction hv with
  | nil h => exact hk
  | cons h f fs a b c d _ ih =>
    rw [applyFills_cons]
    apply ih
    intro p hp
    unfold applyFill
    split
    · rename_i e; rw [← e]
      exact filled_ok (hk p hp) b (le_of_lt a) (by rw [e]; exact c)
    · exact hk p hp

/-- Base coin amount of the fills of one direction. -/
def baseOf (h : Heap) (d : Dir) (fs : List Fill) : Int :=
  (fs.map (fun f => if (h f.ptr).dir = d then f.amt else 0)).sum

theorem baseOf_append (h : Heap) (d : Dir) (fs gs : List Fill) :
    baseOf h d (fs ++ gs) = baseOf h d fs + baseOf h d gs := by
  unfold baseOf; rw [List.map_append, List.sum_append]

theorem baseOf_apply (h : Heap) (d : Dir) (fs gs : List Fill) : baseOf (applyFills h fs) d gs = baseOf h d gs := by
  unfold baseOf; apply sum_map_congr; intro f _; rw [applyFills_dir]

theorem baseOf_same {h : Heap} {d : Dir} {fs : List Fill} (hd : ∀ f ∈ fs, (h f.ptr).dir = d) :
    baseOf h d fs = amtSum fs := by
  unfold baseOf amtSum; apply sum_map_congr; intro f hf; rw [if_pos (hd f hf)]

theorem baseOf_other {h : Heap} {d d' : Dir} {fs : List Fill} (hd : ∀ f ∈ fs, (h f.ptr).dir = d') (hne : d' ≠ d) :
    baseOf h d fs = 0 := by
  unfold baseOf
  rw [sum_map_congr (g := fun _ => 0)]
  · simp
  · intro f hf; rw [if_neg (by rw [hd f hf]; exact hne)]

/-- What every (partial) matching satisfies. -/
structure Good (h : Heap) (fs : List Fill) : Prop where
  valid : ValidSeq h fs
  base_le : baseOf h .sell fs ≤ baseOf h .buy fs
  base_eq : (∀ f ∈ fs, Dec.one ≤ f.price) → baseOf h .sell fs = baseOf h .buy fs
  diff_nonneg : 0 ≤ fillsDiff h fs

theorem Good.nil (h : Heap) : Good h [] := ⟨ValidSeq.nil h, by simp [baseOf], by simp [baseOf], by simp [fillsDiff]⟩

theorem Good.append {h : Heap} {fs gs : List Fill} (h1 : Good h fs) (h2 : Good (applyFills h fs) gs) :
    Good h (fs ++ gs) := by
  have b2 := h2.base_le
  have e2 := h2.base_eq
  have d2 := h2.diff_nonneg
  rw [baseOf_apply, baseOf_apply] at b2 e2
  rw [fillsDiff_applyFills] at d2
  refine ⟨h1.valid.append h2.valid, ?_, ?_, ?_⟩
  · rw [baseOf_append, baseOf_append]; have := h1.base_le; omega
  · intro hf
    rw [baseOf_append, baseOf_append]
    have := h1.base_eq (fun f hf' => hf f (List.mem_append_left _ hf'))
    have := e2 (fun f hf' => hf f (List.mem_append_right _ hf'))
    omega
  · rw [fillsDiff_append]; have := h1.diff_nonneg; omega

/-- One two-sided step at one price is good. -/
theorem good_step {h : Heap} {price : Int} (hp : 0 < price) {B S : List Nat} {fb fsl : List Fill} {m : Int} (hm : 0 < m)
    (hB : ∀ p ∈ B, (h p).dir = .buy ∧ price ≤ (h p).price) (hS : ∀ p ∈ S, (h p).dir = .sell ∧ (h p).price ≤ price)
    (i1 : Indep h price B fb) (i2 : Indep (applyFills h fb) price S fsl) (s1 : amtSum fb = m) (s2 : amtSum fsl ≤ m)
    (s3 : Dec.one ≤ price → amtSum fsl = m) : Good h (fb ++ fsl) := by
  have hdb : ∀ f ∈ fb, (h f.ptr).dir = .buy := fun f hf => (hB _ (i1.sub f hf)).1
  have hds : ∀ f ∈ fsl, (h f.ptr).dir = .sell := fun f hf => (hS _ (i2.sub f hf)).1
  have hbb := baseOf_same hdb
  have hbs := baseOf_other (d := .sell) hdb (by decide)
  have hsb := baseOf_other (d := .buy) hds (by decide)
  have hss := baseOf_same hds
  have hfb : fb ≠ [] := by intro e; subst e; simp [amtSum] at s1; omega
  refine ⟨?_, ?_, ?_, ?_⟩
  · refine ValidSeq.append (i1.validSeq hp ?_) (i2.validSeq hp ?_)
    · intro f hf; rw [hdb f hf]; exact (hB _ (i1.sub f hf)).2
    · intro f hf
      rw [applyFills_dir, applyFills_price, hds f hf]
      exact (hS _ (i2.sub f hf)).2
  · rw [baseOf_append, baseOf_append]; omega
  · intro hall
    have : Dec.one ≤ price := by
      cases fb with
      | nil => exact absurd rfl hfb
      | cons f fb => rw [← i1.price_eq f (by simp)]; exact hall f (by simp)
    rw [baseOf_append, baseOf_append]
    have := s3 this; omega
  · rw [fillsDiff_append]
    have e1 : fillsDiff h fb = (fb.map (fun f => quoteCeil price f.amt)).sum := by
      unfold fillsDiff; apply sum_map_congr; intro f hf
      rw [hdb f hf, i1.price_eq f hf]; rfl
    have e2 : fillsDiff h fsl = - (fsl.map (fun f => quoteFloor price f.amt)).sum := by
      unfold fillsDiff
      rw [← sum_map_neg]
      apply sum_map_congr; intro f hf
      rw [hds f hf, i2.price_eq f hf]; rfl
    have c1 : (fb.map (fun f => f.amt * price)).sum ≤ (fb.map (fun f => quoteCeil price f.amt * Dec.one)).sum := by
      apply sum_map_le; intro f hf
      have h0 := i1.pos f hf
      have := (quoteCeil_spec (p := price) (a := f.amt) (by positivity)).2.1
      linarith
    have c2 : (fsl.map (fun f => quoteFloor price f.amt * Dec.one)).sum ≤ (fsl.map (fun f => f.amt * price)).sum := by
      apply sum_map_le; intro f hf
      have h0 := i2.pos f hf
      have := (quoteFloor_spec (p := price) (a := f.amt) (by positivity)).2.1
      linarith
    rw [sum_map_mul, sum_map_mul] at c1 c2
    have c3 : amtSum fsl * price ≤ amtSum fb * price := mul_le_mul_of_nonneg_right (by omega) (le_of_lt hp)
    unfold amtSum at c3
    rw [e1, e2]
    have c4 : (fsl.map (fun f => quoteFloor price f.amt)).sum * Dec.one ≤ (fb.map (fun f => quoteCeil price f.amt)).sum * Dec.one := by
      linarith
    have := le_of_mul_le_mul_right c4 one_pos
    omega

/-! ### MatchAtSinglePrice and Match -/

theorem buildSide_prefix (inc : Bool) (ts : List Tick) (price : Int) :
    ∃ post, ts = buildSide inc ts price ++ post := by
  exact ⟨_, (List.takeWhile_append_dropWhile).symm⟩

theorem buildSide_limit {inc : Bool} {ts : List Tick} {price : Int} {t : Tick} (ht : t ∈ buildSide inc ts price) :
    if inc then t.price ≤ price else price ≤ t.price := by
  unfold buildSide at ht
  have := List.mem_takeWhile_imp ht
  cases inc <;> simp at this ⊢ <;> omega

theorem SideOk.prefix {h : Heap} {d : Dir} {pre post : List Tick} (hs : SideOk h d (pre ++ post)) : SideOk h d pre := by
  obtain ⟨a, b, c, e, f⟩ := hs
  rw [List.flatMap_append] at a b c
  rw [List.nodup_append] at a
  exact ⟨a.1, fun p hp => b p (List.mem_append_left _ hp), fun p hp => c p (List.mem_append_left _ hp),
    fun t' ht => e t' (List.mem_append_left _ ht), fun t' ht => f t' (List.mem_append_left _ ht)⟩

/-- Price priority inside a list of ticks: a later tick is touched only if all earlier ticks are exhausted. -/
def PricePriority (h : Heap) (price : Int) (ts : List Tick) (fs : List Fill) : Prop :=
  ∀ (pre : List Tick) (t : Tick) (post : List Tick), ts = pre ++ t :: post →
    ∀ f ∈ fs, f.ptr ∈ post.flatMap (·.orders) → ∀ q ∈ t.orders,
      applyFills h fs q = filledOrder (h q) (matchableAmount (h q) price) price ∧ matchableAmount (applyFills h fs q) price = 0

theorem matchAtSinglePrice_spec {h : Heap} {ob : OrderBook} {price : Int} (hp : 0 < price)
    (hb : SideOk h .buy ob.buys) (hs : SideOk h .sell ob.sells) :
    (findMatchableAmountAtSinglePrice h ob price = none ∧
      matchAtSinglePrice h ob price = some ({ heap := h, diff := 0, log := [] }, false)) ∨
    (∃ m fb fsl, findMatchableAmountAtSinglePrice h ob price = some m ∧ 0 < m ∧
      matchAtSinglePrice h ob price = some (({ heap := h, diff := 0, log := [] } : MState).run (fb ++ fsl), true) ∧
      Indep h price ((buildSide false ob.buys price).flatMap (·.orders)) fb ∧
      Indep (applyFills h fb) price ((buildSide true ob.sells price).flatMap (·.orders)) fsl ∧
      amtSum fb = m ∧ amtSum fsl ≤ m ∧ (Dec.one ≤ price → amtSum fsl = m) ∧
      Good h (fb ++ fsl) ∧
      PricePriority h price (buildSide false ob.buys price) fb ∧
      PricePriority (applyFills h fb) price (buildSide true ob.sells price) fsl) := by
  unfold matchAtSinglePrice
  simp only
  cases hf : findMatchableAmountAtSinglePrice h ob price with
  | none => left; exact ⟨rfl, rfl⟩
  | some m =>
    right
    obtain ⟨pb, epb⟩ := buildSide_prefix false ob.buys price
    obtain ⟨ps, eps⟩ := buildSide_prefix true ob.sells price
    have hlb : ∀ t ∈ buildSide false ob.buys price, price ≤ t.price := fun t ht => by simpa using buildSide_limit ht
    have hls : ∀ t ∈ buildSide true ob.sells price, t.price ≤ price := fun t ht => by simpa using buildSide_limit ht
    unfold findMatchableAmountAtSinglePrice at hf
    simp only at hf
    set B := buildSide false ob.buys price with hB
    set S := buildSide true ob.sells price with hS
    have hb' : SideOk h .buy B := by rw [epb] at hb; exact hb.prefix
    have hs' : SideOk h .sell S := by rw [eps] at hs; exact hs.prefix
    split at hf
    · cases hf
    · split at hf
      · cases hf
      · obtain ⟨m0, m1, m2, _⟩ := findLoop_spec hp _ B S m hb'.ok hs'.ok hf
        rw [ticksTotal_eq] at m1 m2
        rw [epb, eps]
        simp only
        rw [distributeToTicks_prefix hp pb B { heap := h, diff := 0, log := [] } m hb'.nodup hb'.ok m0 m1]
        obtain ⟨fb, e1, e2, e3, e4, e5⟩ := distributeToTicks_spec hp B { heap := h, diff := 0, log := [] } m hb'.nodup hb'.ok (le_of_lt m0)
        rw [e1]
        simp only
        have hs2 : SideOk (applyFills h fb) .sell S := hs'.apply hp e2
        have hdisj : ∀ p ∈ S.flatMap (·.orders), applyFills h fb p = h p := by
          intro p hp'
          apply applyFills_other
          intro f hf' e
          have h1 := hb'.dirs _ (e2.sub f hf')
          have h2 := hs'.dirs _ hp'
          rw [e, h2] at h1; cases h1
        have m2' : m ≤ totalMatchable (applyFills h fb) (S.flatMap (·.orders)) price := by
          rw [totalMatchable_congr hdisj]; exact m2
        rw [distributeToTicks_prefix hp ps S _ m hs'.nodup hs2.ok m0 m2']
        obtain ⟨fsl, g1, g2, g3, g4, g5⟩ := distributeToTicks_spec hp S
          (({ heap := h, diff := 0, log := [] } : MState).run fb) m hs'.nodup hs2.ok (le_of_lt m0)
        rw [g1]
        simp only
        have sb : amtSum fb = m := e4 m0 m1 (Or.inl hb'.dirs)
        have ss : Dec.one ≤ price → amtSum fsl = m := fun h1 => g4 m0 m2' (Or.inr h1)
        refine ⟨m, fb, fsl, rfl, m0, by rw [run_append], e2, g2, sb, g3, ss, ?_, e5, g5⟩
        apply good_step hp m0 _ _ e2 g2 sb g3 ss
        · intro p hp'
          obtain ⟨t, ht, hpt⟩ := List.mem_flatMap.1 hp'
          exact ⟨hb'.dirs p hp', by rw [hb'.prices t ht p hpt]; exact hlb t ht⟩
        · intro p hp'
          obtain ⟨t, ht, hpt⟩ := List.mem_flatMap.1 hp'
          exact ⟨hs'.dirs p hp', by rw [hs'.prices t ht p hpt]; exact hls t ht⟩

theorem SideOk.applyGood {h : Heap} {d : Dir} {ts : List Tick} (hs : SideOk h d ts) {fs : List Fill} (hv : ValidSeq h fs) :
    SideOk (applyFills h fs) d ts :=
  ⟨hs.nodup, hv.heapOk hs.ok, fun p hp' => by rw [applyFills_dir]; exact hs.dirs p hp',
   fun t ht p hp' => by rw [applyFills_price]; exact hs.prices t ht p hp', hs.pos⟩

theorem matchLoop_spec (dir : PriceDir) : ∀ (fuel : Nat) (st : MState) (bs ss : List Tick) (mp : Int) (matched : Bool),
    SideOk st.heap .buy bs → SideOk st.heap .sell ss →
    ∃ fs mp' matched', matchLoop dir fuel st bs ss mp matched = some (st.run fs, mp', matched') ∧ Good st.heap fs ∧
      (∀ f ∈ fs, f.ptr ∈ bs.flatMap (·.orders) ∨ f.ptr ∈ ss.flatMap (·.orders)) ∧
      ((fs = [] ∧ mp' = mp ∧ matched' = matched) ∨ (fs ≠ [] ∧ matched' = true ∧ ∃ f ∈ fs, f.price = mp')) ∧
      (∀ f ∈ fs, ∃ t, (t ∈ bs ∨ t ∈ ss) ∧ f.price = t.price) ∧ (∀ f ∈ fs, ∃ t ∈ ss, t.price ≤ f.price) := by
  intro fuel
  induction fuel with
  | zero =>
    intro st bs ss mp matched _ _
    exact ⟨[], mp, matched, by simp [matchLoop], Good.nil _, by simp, Or.inl ⟨rfl, rfl, rfl⟩, by simp, by simp⟩
  | succ n ih =>
    intro st bs ss mp matched hb hs
    cases bs with
    | nil => exact ⟨[], mp, matched, by simp [matchLoop], Good.nil _, by simp, Or.inl ⟨rfl, rfl, rfl⟩, by simp, by simp⟩
    | cons bt bs =>
      cases ss with
      | nil => exact ⟨[], mp, matched, by simp [matchLoop], Good.nil _, by simp, Or.inl ⟨rfl, rfl, rfl⟩, by simp, by simp⟩
      | cons sk ss =>
        unfold matchLoop
        split
        · exact ⟨[], mp, matched, by simp, Good.nil _, by simp, Or.inl ⟨rfl, rfl, rfl⟩, by simp, by simp⟩
        · rename_i hcross
          simp only
          obtain ⟨b1, b2, b3, b4, b5, b6⟩ := hb.head
          obtain ⟨s1, s2, s3, s4, s5, s6⟩ := hs.head
          set p := (if dir = .increasing then sk.price else bt.price) with hpdef
          have hp : 0 < p := by rw [hpdef]; split <;> omega
          have hpb : p ≤ bt.price := by rw [hpdef]; split <;> omega
          have hps : sk.price ≤ p := by rw [hpdef]; split <;> omega
          set bAmt := totalMatchable st.heap bt.orders p with hbA
          set sAmt := totalMatchable st.heap sk.orders p with hsA
          split
          · obtain ⟨fs, mp', m', e1, e2, e3, e4, e5, e6⟩ := ih st bs (sk :: ss) mp matched hb.tail hs
            refine ⟨fs, mp', m', e1, e2, ?_, e4, fun f hf => by
              obtain ⟨t, h1, h2⟩ := e5 f hf
              exact ⟨t, h1.imp (List.mem_cons_of_mem _) id, h2⟩, e6⟩
            intro f hf
            rcases e3 f hf with h1 | h1
            · left; rw [List.flatMap_cons]; exact List.mem_append_right _ h1
            · right; exact h1
          · rename_i hbpos
            split
            · obtain ⟨fs, mp', m', e1, e2, e3, e4, e5, e6⟩ := ih st (bt :: bs) ss mp matched hb hs.tail
              refine ⟨fs, mp', m', e1, e2, ?_, e4, fun f hf => by
                obtain ⟨t, h1, h2⟩ := e5 f hf
                exact ⟨t, h1.imp id (List.mem_cons_of_mem _), h2⟩, fun f hf => by
                obtain ⟨t, h1, h2⟩ := e6 f hf
                exact ⟨t, List.mem_cons_of_mem _ h1, h2⟩⟩
              intro f hf
              rcases e3 f hf with h1 | h1
              · left; exact h1
              · right; rw [List.flatMap_cons]; exact List.mem_append_right _ h1
            · rename_i hspos
              have hmb : (if bAmt ≤ sAmt then bAmt else sAmt) = min bAmt sAmt := by split <;> omega
              have hms : (if sAmt ≤ bAmt then sAmt else bAmt) = min bAmt sAmt := by split <;> omega
              rw [hmb, hms]
              have hmpos : 0 < min bAmt sAmt := by omega
              obtain ⟨fb, f1, f2, f3, f4, _, _⟩ := distributeToTick_spec hp st bt (min bAmt sAmt) b1 b2 (by omega) (by omega)
              rw [f1]
              simp only
              have hdisj : ∀ q ∈ sk.orders, applyFills st.heap fb q = st.heap q := by
                intro q hq
                apply applyFills_other
                intro f hf e
                have h1 := b3 _ (f2.sub f hf)
                have h2 := s3 _ hq
                rw [e, h2] at h1; cases h1
              have hks : HeapOk (applyFills st.heap fb) sk.orders := f2.heapOk hp s2
              have hsA' : totalMatchable (applyFills st.heap fb) sk.orders p = sAmt := by
                rw [totalMatchable_congr hdisj]
              obtain ⟨fsl, g1, g2, g3, g4, _, _⟩ := distributeToTick_spec hp (st.run fb) sk (min bAmt sAmt) s1 hks (by omega)
                (by show _ ≤ totalMatchable (applyFills st.heap fb) sk.orders p; rw [hsA']; omega)
              rw [g1]
              simp only
              rw [run_append]
              have sb : amtSum fb = min bAmt sAmt := f4 hmpos (Or.inl b3)
              have hgood : Good st.heap (fb ++ fsl) := by
                apply good_step hp hmpos (B := bt.orders) (S := sk.orders) _ _ f2 g2 sb g3 (fun h1 => g4 hmpos (Or.inr h1))
                · intro q hq; exact ⟨b3 q hq, by rw [b4 q hq]; exact hpb⟩
                · intro q hq; exact ⟨s3 q hq, by rw [s4 q hq]; exact hps⟩
              have hb2 : SideOk (st.run (fb ++ fsl)).heap .buy (bt :: bs) := hb.applyGood hgood.valid
              have hs2 : SideOk (st.run (fb ++ fsl)).heap .sell (sk :: ss) := hs.applyGood hgood.valid
              have hb3 : SideOk (st.run (fb ++ fsl)).heap .buy (if bAmt ≤ sAmt then bs else bt :: bs) := by
                split
                · exact hb2.tail
                · exact hb2
              have hs3 : SideOk (st.run (fb ++ fsl)).heap .sell (if sAmt ≤ bAmt then ss else sk :: ss) := by
                split
                · exact hs2.tail
                · exact hs2
              obtain ⟨fs, mp', m', e1, e2, e3, e4, e5, e6⟩ := ih (st.run (fb ++ fsl)) _ _ p true hb3 hs3
              have hfbne : fb ≠ [] := by intro e; rw [e] at sb; simp [amtSum] at sb; omega
              refine ⟨(fb ++ fsl) ++ fs, mp', m', by rw [e1, run_append], hgood.append e2, ?_, ?_, ?_, ?_⟩
              · intro f hf
                rcases List.mem_append.1 hf with hf | hf
                · rcases List.mem_append.1 hf with hf | hf
                  · left; rw [List.flatMap_cons]; exact List.mem_append_left _ (f2.sub f hf)
                  · right; rw [List.flatMap_cons]; exact List.mem_append_left _ (g2.sub f hf)
                · rcases e3 f hf with h1 | h1
                  · left; rw [List.flatMap_cons]
                    split at h1
                    · exact List.mem_append_right _ h1
                    · rwa [List.flatMap_cons] at h1
                  · right; rw [List.flatMap_cons]
                    split at h1
                    · exact List.mem_append_right _ h1
                    · rwa [List.flatMap_cons] at h1
              · right
                refine ⟨by simp [hfbne], ?_, ?_⟩
                · rcases e4 with ⟨_, _, e⟩ | ⟨_, e, _⟩ <;> exact e
                · rcases e4 with ⟨_, e, _⟩ | ⟨_, _, f, hf, e⟩
                  · cases fb with
                    | nil => exact absurd rfl hfbne
                    | cons f fb => exact ⟨f, by simp, by rw [e]; exact f2.price_eq f (by simp)⟩
                  · exact ⟨f, List.mem_append_right _ hf, e⟩
              · intro f hf
                have hpt : ∃ t, (t ∈ bt :: bs ∨ t ∈ sk :: ss) ∧ p = t.price := by
                  rw [hpdef]; split
                  · exact ⟨sk, Or.inr (by simp), rfl⟩
                  · exact ⟨bt, Or.inl (by simp), rfl⟩
                rcases List.mem_append.1 hf with hf | hf
                · have hfp : f.price = p := by
                    rcases List.mem_append.1 hf with hf | hf
                    · exact f2.price_eq f hf
                    · exact g2.price_eq f hf
                  rw [hfp]; exact hpt
                · obtain ⟨t, h1, h2⟩ := e5 f hf
                  refine ⟨t, ?_, h2⟩
                  rcases h1 with h1 | h1
                  · left; split at h1
                    · exact List.mem_cons_of_mem _ h1
                    · exact h1
                  · right; split at h1
                    · exact List.mem_cons_of_mem _ h1
                    · exact h1
              · intro f hf
                rcases List.mem_append.1 hf with hf | hf
                · refine ⟨sk, by simp, ?_⟩
                  rcases List.mem_append.1 hf with hf | hf
                  · rw [f2.price_eq f hf]; exact hps
                  · rw [g2.price_eq f hf]; exact hps
                · obtain ⟨t, h1, h2⟩ := e6 f hf
                  refine ⟨t, ?_, h2⟩
                  split at h1
                  · exact List.mem_cons_of_mem _ h1
                  · exact h1

/-- More fuel than ticks changes nothing: the Go loop terminates. -/
theorem matchLoop_fuel (dir : PriceDir) : ∀ (fuel : Nat) (st : MState) (bs ss : List Tick) (mp : Int) (matched : Bool),
    bs.length + ss.length < fuel →
    matchLoop dir (fuel + 1) st bs ss mp matched = matchLoop dir fuel st bs ss mp matched := by
  intro fuel
  induction fuel with
  | zero => intro _ _ _ _ _ h; omega
  | succ n ih =>
    intro st bs ss mp matched hlen
    cases bs with
    | nil => simp [matchLoop]
    | cons bt bs =>
      cases ss with
      | nil => simp [matchLoop]
      | cons sk ss =>
        simp only [List.length_cons] at hlen
        have i1 := fun st mp m => ih st bs (sk :: ss) mp m (by simp only [List.length_cons]; omega)
        have i2 := fun st mp m => ih st (bt :: bs) ss mp m (by simp only [List.length_cons]; omega)
        have i3 := fun st mp m (x y : Int) => ih st (if x ≤ y then bs else bt :: bs) (if y ≤ x then ss else sk :: ss) mp m
          (by
            by_cases h1 : x ≤ y
            · by_cases h2 : y ≤ x <;> simp [h1, h2] <;> omega
            · have h2 : y ≤ x := by omega
              simp [h1, h2]; omega)
        rw [matchLoop.eq_4, matchLoop.eq_4]
        simp only [i1, i2, i3]

theorem obMatch_spec {h : Heap} {ob : OrderBook} {last : Int} (hl : 0 < last)
    (hb : SideOk h .buy ob.buys) (hs : SideOk h .sell ob.sells) :
    ∃ r fs, obMatch h ob last = some r ∧ r.st = ({ heap := h, diff := 0, log := [] } : MState).run fs ∧ Good h fs ∧
      (∀ f ∈ fs, f.ptr ∈ ob.buys.flatMap (·.orders) ∨ f.ptr ∈ ob.sells.flatMap (·.orders)) ∧
      (r.matched = true ↔ fs ≠ []) ∧ (r.matched = true → ∃ f ∈ fs, f.price = r.matchPrice) ∧
      (∀ f ∈ fs, f.price = last ∨ ∃ t, (t ∈ ob.buys ∨ t ∈ ob.sells) ∧ f.price = t.price) ∧
      (∀ f ∈ fs, ∃ t ∈ ob.sells, t.price ≤ f.price) := by
  unfold obMatch
  split
  · exact ⟨_, [], rfl, by simp, Good.nil _, by simp, by simp, by simp, by simp, by simp⟩
  · simp only
    rcases matchAtSinglePrice_spec hl hb hs with ⟨_, e⟩ | ⟨m, fb, fsl, hfm, hm, e, i1, i2, s1, s2, s3, hg, _⟩
    · rw [e]
      simp only
      split
      · exact ⟨_, [], rfl, by simp, Good.nil _, by simp, by simp, by simp, by simp, by simp⟩
      · obtain ⟨fs, mp', m', e1, e2, e3, e4, e5, e6⟩ := matchLoop_spec (priceDirection h ob last)
          (ob.buys.length + ob.sells.length + 1) { heap := h, diff := 0, log := [] } ob.buys ob.sells last false hb hs
        rw [e1]
        refine ⟨_, fs, rfl, rfl, e2, e3, ?_, ?_, fun f hf => Or.inr (e5 f hf), e6⟩
        · rcases e4 with ⟨a, _, c⟩ | ⟨a, c, _⟩
          · simp [a, c]
          · simp [a, c]
        · rcases e4 with ⟨a, _, c⟩ | ⟨a, c, d⟩
          · simp [c]
          · intro _; exact d
    · rw [e]
      simp only
      obtain ⟨pb, epb⟩ := buildSide_prefix false ob.buys last
      obtain ⟨ps, eps⟩ := buildSide_prefix true ob.sells last
      have hfbne : fb ≠ [] := by intro e; rw [e] at s1; simp [amtSum] at s1; omega
      have hsub : ∀ f ∈ fb ++ fsl, f.ptr ∈ ob.buys.flatMap (·.orders) ∨ f.ptr ∈ ob.sells.flatMap (·.orders) := by
        intro f hf
        rcases List.mem_append.1 hf with hf | hf
        · left; rw [epb, List.flatMap_append]; exact List.mem_append_left _ (i1.sub f hf)
        · right; rw [eps, List.flatMap_append]; exact List.mem_append_left _ (i2.sub f hf)
      have hpr : ∀ f ∈ fb ++ fsl, f.price = last ∨ ∃ t, (t ∈ ob.buys ∨ t ∈ ob.sells) ∧ f.price = t.price := by
        intro f hf
        left
        rcases List.mem_append.1 hf with hf | hf
        · exact i1.price_eq f hf
        · exact i2.price_eq f hf
      have hsl : ∀ f ∈ fb ++ fsl, ∃ t ∈ ob.sells, t.price ≤ f.price := by
        intro f hf
        have hfp : f.price = last := by
          rcases List.mem_append.1 hf with hf | hf
          · exact i1.price_eq f hf
          · exact i2.price_eq f hf
        unfold findMatchableAmountAtSinglePrice at hfm
        simp only at hfm
        split at hfm
        · cases hfm
        · split at hfm
          · cases hfm
          · rename_i hne
            obtain ⟨t, ht⟩ := List.exists_mem_of_ne_nil _ hne
            have h1 := buildSide_limit ht
            simp only [if_true] at h1
            refine ⟨t, ?_, by omega⟩
            rw [eps]; exact List.mem_append_left _ ht
      split
      · refine ⟨_, fb ++ fsl, rfl, rfl, hg, hsub, by simp [hfbne], ?_, hpr, hsl⟩
        intro _
        cases fb with
        | nil => exact absurd rfl hfbne
        | cons f fb => exact ⟨f, by simp, i1.price_eq f (by simp)⟩
      · have hb2 : SideOk (({ heap := h, diff := 0, log := [] } : MState).run (fb ++ fsl)).heap .buy ob.buys := hb.applyGood hg.valid
        have hs2 : SideOk (({ heap := h, diff := 0, log := [] } : MState).run (fb ++ fsl)).heap .sell ob.sells := hs.applyGood hg.valid
        obtain ⟨fs, mp', m', e1, e2, e3, e4, e5, e6⟩ := matchLoop_spec (priceDirection h ob last)
          (ob.buys.length + ob.sells.length + 1) _ ob.buys ob.sells last true hb2 hs2
        rw [e1]
        refine ⟨_, (fb ++ fsl) ++ fs, rfl, by simp only [run_append], hg.append e2, ?_, ?_, ?_, fun f hf => (List.mem_append.1 hf).elim (hpr f) (fun h1 => Or.inr (e5 f h1)),
          fun f hf => (List.mem_append.1 hf).elim (hsl f) (e6 f)⟩
        · intro f hf
          rcases List.mem_append.1 hf with hf | hf
          · exact hsub f hf
          · exact e3 f hf
        · have : m' = true := by rcases e4 with ⟨_, _, c⟩ | ⟨_, c, _⟩ <;> exact c
          simp [this, hfbne]
        · intro _
          rcases e4 with ⟨_, c, _⟩ | ⟨_, _, f, hf, hfe⟩
          · cases fb with
            | nil => exact absurd rfl hfbne
            | cons f fb => exact ⟨f, by simp, by rw [i1.price_eq f (by simp)]; exact c.symm⟩
          · exact ⟨f, List.mem_append_right _ hf, hfe⟩

end Verif.Amm

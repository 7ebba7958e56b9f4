import Verif.Proofs.FirstBatch
import Verif.Proofs.DecompMatch
/-! # Price priority in the first trade of a pair (C25) -/
namespace Verif.Dex
open Verif Verif.Amm Verif.Spec Verif.Props

/-- Price priority at a single price: if an order is filled, every order of the book on the same side with a strictly better limit
price is filled by all that was matchable of it. -/
theorem single_priority (h : Heap) (ps : List Nat) (price : Int) (hp : 0 < price) (hnd : ps.Nodup)
    (hl : ∀ p ∈ ps, Live (h p)) :
    ∃ st m, matchAtSinglePrice h (newOrderBook h ps) price = some (st, m) ∧
      ∀ f ∈ st.log, ∀ q ∈ (newOrderBook h ps).orders, Better (h q) (h f.ptr) →
        (st.heap q).openAmt = (h q).openAmt - matchableAmount (h q) price := by
  obtain ⟨sb, ss⟩ := book_sides hnd hl
  have hk := bookOk_new h ps
  rcases matchAtSinglePrice_spec hp sb ss with ⟨_, e⟩ | ⟨m, fb, fsl, _, hm, e, i1, i2, s1, _, _, hg, p1, p2⟩
  · exact ⟨_, _, e, by simp⟩
  · have hlog : ((({ heap := h, diff := 0, log := [] } : MState).run (fb ++ fsl)).log) = fb ++ fsl := by simp [MState.run]
    refine ⟨_, _, e, ?_⟩
    rw [hlog]
    intro f hf q hq hbet
    show (applyFills h (fb ++ fsl) q).openAmt = (h q).openAmt - matchableAmount (h q) price
    rw [applyFills_append]
    unfold OrderBook.orders at hq
    rw [List.flatMap_append] at hq
    rw [buildSide_filter price hk.buys.sorted] at i1 p1
    rw [buildSide_filter price hk.sells.sorted] at i2 p2
    have hbdir : ∀ g ∈ fb, (h g.ptr).dir = .buy := by
      intro g hg'
      obtain ⟨t, ht, hpt⟩ := List.mem_flatMap.1 (i1.sub g hg')
      exact sb.dirs _ (List.mem_flatMap.2 ⟨t, List.mem_of_mem_filter ht, hpt⟩)
    have hsdir : ∀ g ∈ fsl, (h g.ptr).dir = .sell := by
      intro g hg'
      obtain ⟨t, ht, hpt⟩ := List.mem_flatMap.1 (i2.sub g hg')
      exact ss.dirs _ (List.mem_flatMap.2 ⟨t, List.mem_of_mem_filter ht, hpt⟩)
    rcases List.mem_append.1 hf with hf | hf
    · -- a buy
      have hd := hbdir f hf
      obtain ⟨tf, htf, hft⟩ := List.mem_flatMap.1 (i1.sub f hf)
      have hqd : (h q).dir = .buy := by rw [hbet.1, hd]
      have hqb : q ∈ (newOrderBook h ps).buys.flatMap (·.orders) := by
        rcases List.mem_append.1 hq with h1 | h1
        · exact h1
        · have := ss.dirs q h1; rw [hqd] at this; cases this
      obtain ⟨tq, htq, hqt⟩ := List.mem_flatMap.1 hqb
      have hpq := sb.prices tq htq q hqt
      have hpf := sb.prices tf (List.mem_of_mem_filter htf) f.ptr hft
      have hlt : (h f.ptr).price < (h q).price := by have := hbet.2; rw [hqd] at this; exact this
      have htfp := (List.mem_filter.1 htf).2
      simp at htfp
      have htq' : tq ∈ (newOrderBook h ps).buys.filter
          (fun t => if false then decide (t.price ≤ price) else decide (price ≤ t.price)) := by
        rw [List.mem_filter]; refine ⟨htq, ?_⟩; simp; omega
      obtain ⟨pre, post, hsplit, hin⟩ := split_before (hk.buys.sorted.filter _) htq' htf
        (by simp [priceBefore]; omega)
      have hz := (p1 pre tq post hsplit f hf (List.mem_flatMap.2 ⟨tf, hin, hft⟩) q hqt).1
      rw [applyFills_other (h := applyFills h fb)]
      · rw [hz, filled_open]
      · intro g hg' e'
        have := hsdir g hg'
        rw [e', hqd] at this; cases this
    · -- a sell
      have hd := hsdir f hf
      obtain ⟨tf, htf, hft⟩ := List.mem_flatMap.1 (i2.sub f hf)
      have hqd : (h q).dir = .sell := by rw [hbet.1, hd]
      have hqb : q ∈ (newOrderBook h ps).sells.flatMap (·.orders) := by
        rcases List.mem_append.1 hq with h1 | h1
        · have := sb.dirs q h1; rw [hqd] at this; cases this
        · exact h1
      obtain ⟨tq, htq, hqt⟩ := List.mem_flatMap.1 hqb
      have hpq := ss.prices tq htq q hqt
      have hpf := ss.prices tf (List.mem_of_mem_filter htf) f.ptr hft
      have hlt : (h q).price < (h f.ptr).price := by have := hbet.2; rw [hqd] at this; exact this
      have htfp := (List.mem_filter.1 htf).2
      simp at htfp
      have htq' : tq ∈ (newOrderBook h ps).sells.filter
          (fun t => if true then decide (t.price ≤ price) else decide (price ≤ t.price)) := by
        rw [List.mem_filter]; refine ⟨htq, ?_⟩; simp; omega
      obtain ⟨pre, post, hsplit, hin⟩ := split_before (hk.sells.sorted.filter _) htq' htf
        (by simp [priceBefore]; omega)
      rw [(p2 pre tq post hsplit f hf (List.mem_flatMap.2 ⟨tf, hin, hft⟩) q hqt).1, filled_open]
      rw [applyFills_other (h := h)]
      intro g hg' e'
      have := hbdir g hg'
      rw [e', hqd] at this; cases this

/-- A buy order that can pay for all of it is matchable in full, if it is worth a quote unit. -/
theorem buy_full {o : Order} (hd : o.dir = .buy) {price : Int} (hp : 0 < price) (ho : 0 < o.openAmt)
    (h1 : Dec.one ≤ price * o.openAmt) (hr : price * o.openAmt ≤ (o.offer - o.paid) * Dec.one) : matchableAmount o price = o.openAmt := by
  have h0 := Verif.Amm.one_pos
  have hr0 : 0 ≤ o.offer - o.paid := by
    by_contra hc
    have : (o.offer - o.paid) * Dec.one ≤ 0 := Int.mul_nonpos_of_nonpos_of_nonneg (by omega) (by omega)
    omega
  unfold matchableAmount
  rw [hd]
  simp only
  rw [quoTrunc_eq hr0 hp]
  have h4 : o.openAmt ≤ (o.offer - o.paid) * Dec.one / price := by
    rw [Int.le_ediv_iff_mul_le hp, mul_comm]; exact hr
  rw [min_eq_left h4]
  have hq := quoteFloor_spec (p := price) (a := o.openAmt) (by omega)
  rw [if_neg]
  intro e
  rw [e] at hq
  omega

/-- A sell order is matchable in full, if it is worth a quote unit. -/
theorem sell_full {o : Order} (hd : o.dir = .sell) {price : Int} (ho : 0 < o.openAmt)
    (h1 : Dec.one ≤ price * o.openAmt) : matchableAmount o price = o.openAmt := by
  have h0 := Verif.Amm.one_pos
  unfold matchableAmount
  rw [hd]
  simp only
  have hq := quoteFloor_spec (p := price) (a := o.openAmt) (by omega)
  rw [if_neg]
  intro e
  rw [e] at hq
  omega

/-- The first match of a pair is at one price, and fills an order only if every order with a better price is filled by
all that is matchable of it. -/
theorem firstMatch_priority {env : Env} {pr : Params} (hpr : SaneParams pr) {os : List Order} {pools : List (Nat × Pool)} {out : MatchOut}
    (hl : ∀ o ∈ os, Live o) (h : keeperMatch env pr os pools none = some (some out)) :
    ∃ (pos : List Order) (H : Heap) (log : List Fill), (∀ o ∈ pos, ∃ id, o.kind = .pool id) ∧
      FairExecution (heapOf (os ++ pos)) H log ∧
      (∀ y ∈ out.orders, ∃ j < (os ++ pos).length, y = H j) ∧
      (∀ j, H j = heapOf (os ++ pos) j ∨ H j ∈ out.orders) ∧
      0 < out.price ∧ (∀ f ∈ log, f.price = out.price) ∧
      ∀ f ∈ log, ∀ i < os.length, 0 < matchableAmount (heapOf (os ++ pos) i) (heapOf (os ++ pos) i).price →
        Better (heapOf (os ++ pos) i) (heapOf (os ++ pos) f.ptr) → 
          (H i).openAmt = (heapOf (os ++ pos) i).openAmt - matchableAmount (heapOf (os ++ pos) i) out.price := by
  unfold keeperMatch at h
  simp only at h
  split at h
  · cases h
  · split at h
    · cases h
    · rename_i mp hmp
      have hmp0 := findMatchPrice_pos hpr.prec hmp
      split at h
      · cases h
      · rename_i pos hpos
        split at h
        · cases h
        · cases h
        · rename_i st hst
          have h := Option.some.inj (Option.some.inj h)
          subst h
          have hpo := singlePrice_pos hmp0 hpos
          have hal := all_live (pos := pos) hl (fun o ho => by obtain ⟨e, _, hi⟩ := hpo o ho; exact hi.live)
          obtain ⟨st', m, e1, e2, e3, e4⟩ := C20_single_price_fair (heapOf (os ++ pos)) _ mp hmp0 List.nodup_range hal
          have : some (st', m) = some (st, true) := e1.symm.trans hst
          simp only [Option.some.injEq, Prod.mk.injEq] at this
          obtain ⟨rfl, rfl⟩ := this
          obtain ⟨st2, m2, g1, g2⟩ := single_priority (heapOf (os ++ pos)) _ mp hmp0 List.nodup_range hal
          have : some (st2, m2) = some (st', true) := g1.symm.trans hst
          simp only [Option.some.injEq, Prod.mk.injEq] at this
          obtain ⟨rfl, rfl⟩ := this
          have hbk := bookOk_new (heapOf (os ++ pos)) (List.range (os ++ pos).length)
          have hmem : ∀ j, j ∈ (bookOf (os ++ pos)).orders ↔
              j ∈ eligible (heapOf (os ++ pos)) .buy (List.range (os ++ pos).length) ∨
              j ∈ eligible (heapOf (os ++ pos)) .sell (List.range (os ++ pos).length) := by
            intro j
            unfold OrderBook.orders bookOf
            rw [List.flatMap_append, List.mem_append, hbk.buys.perm.mem_iff, hbk.sells.perm.mem_iff]
          refine ⟨pos, st2.heap, st2.log, ?_, e2, ?_, ?_, hmp0, e3, ?_⟩
          · intro o ho
            obtain ⟨id, _, e⟩ := singlePrice_kind hpos o ho
            exact ⟨id, e⟩
          · intro y hy
            obtain ⟨j, hj, rfl⟩ := List.mem_map.1 hy
            refine ⟨j, ?_, rfl⟩
            rw [← List.mem_range]
            rcases (hmem j).1 hj with hj | hj
            · exact (eligible_mem hj).1
            · exact (eligible_mem hj).1
          · intro j
            by_cases hj : j ∈ (bookOf (os ++ pos)).orders
            · exact Or.inr (List.mem_map.2 ⟨j, hj, rfl⟩)
            · exact Or.inl (fillSteps_other (fills_single hst) j hj)
          · intro f hf i hi h0 hb
            refine g2 f hf i ((hmem i).2 ?_) hb
            have hr : i ∈ List.range (os ++ pos).length := List.mem_range.2 (by rw [List.length_append]; omega)
            unfold eligible
            cases hd : (heapOf (os ++ pos) i).dir with
            | buy => exact .inl (List.mem_filter.2 ⟨hr, by simp [hd, h0]⟩)
            | sell => exact .inr (List.mem_filter.2 ⟨hr, by simp [hd, h0]⟩)

end Verif.Dex

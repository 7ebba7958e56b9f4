import Verif.Proofs.Escrow
import Verif.Proofs.OneSide
import Verif.Proofs.PoolTrade
/-! # Base coin conservation of the keeper's matching when everything sold has a price of at least one -/
namespace Verif.Dex
open Verif Verif.Amm Verif.Spec

/-- The base coin flow of the book is the one of the fill log. -/
theorem base_steps {h : Heap} {L : List Nat} (hnd : L.Nodup) {st st' : MState} (hid : SameIds h st.heap) (hs : FillSteps L st st') :
    SameIds h st'.heap ∧ (L.map (fun p => baseFlow (st'.heap p))).sum - (baseOf h .buy st'.log - baseOf h .sell st'.log) =
      (L.map (fun p => baseFlow (st.heap p))).sum - (baseOf h .buy st.log - baseOf h .sell st.log) := by
  induction hs with
  | refl => exact ⟨hid, rfl⟩
  | @tail b c _ hstep ih =>
    obtain ⟨i1, i2⟩ := ih
    obtain ⟨p, hp, amt, price, e⟩ := hstep
    refine ⟨i1.trans (ids_fill e), ?_⟩
    rw [← i2]
    unfold fillOrder at e
    split at e
    · cases e
    · have e := Option.some.inj e
      subst e
      rw [sum_map_update hnd hp (fun q => baseFlow (b.heap q))]
      · simp only [if_true]
        rw [baseOf_append, baseOf_append]
        have hd : (h p).dir = (b.heap p).dir := ((i1 p).2.1).symm
        unfold baseFlow filledOrder baseOf
        simp only [List.map_cons, List.map_nil, List.sum_cons, List.sum_nil, hd]
        cases (b.heap p).dir <;> simp <;> ring
      · intro q hq
        simp only [if_neg hq]

theorem imbalance_log {os : List Order} {st : MState} (hfresh : ∀ i ∈ (bookOf os).orders, (heapOf os i).openAmt = (heapOf os i).amount)
    (hs : FillSteps (bookOf os).orders { heap := heapOf os, diff := 0, log := [] } st) :
    baseImbalance ((bookOf os).orders.map st.heap) = baseOf (heapOf os) .buy st.log - baseOf (heapOf os) .sell st.log := by
  obtain ⟨b1, _, _⟩ := book_orders_nodup (heapOf os) (List.nodup_range (n := os.length))
  have b1 : (bookOf os).orders.Nodup := b1
  have h := (base_steps (h := heapOf os) b1 (SameIds.refl _) hs).2
  have e0 : ((bookOf os).orders.map (fun p => baseFlow (heapOf os p))).sum = 0 := by
    have : (bookOf os).orders.map (fun p => baseFlow (heapOf os p)) = (bookOf os).orders.map (fun _ => (0 : Int)) := by
      apply List.map_congr_left
      intro i hi
      have := hfresh i hi
      unfold baseFlow
      split <;> omega
    rw [this]; simp
  have e1 : baseImbalance ((bookOf os).orders.map st.heap) = ((bookOf os).orders.map (fun p => baseFlow (st.heap p))).sum := by
    unfold baseImbalance baseFlow
    rw [List.map_map]; rfl
  rw [e1]
  simp only [e0, baseOf, List.map_nil, List.sum_nil] at h ⊢
  linarith

theorem singlePrice_price {mp : Int} : ∀ {ps : List (Nat × Pool)} {pos : List Order}, singlePriceOrders mp ps = some pos →
    ∀ o ∈ pos, o.price = mp := by
  intro ps
  induction ps with
  | nil => intro pos h; simp only [singlePriceOrders, Option.some.injEq] at h; subst h; simp
  | cons e ps ih =>
    intro pos h
    obtain ⟨id, p⟩ := e
    unfold singlePriceOrders at h
    split at h
    · rename_i b sl rest h1 h2 h3
      have h := Option.some.inj h
      subst h
      intro o ho
      simp only [List.mem_append] at ho
      rcases ho with (ho | ho) | ho
      · split at ho
        · simp only [List.mem_singleton] at ho
          subst ho; rfl
        · cases ho
      · split at ho
        · simp only [List.mem_singleton] at ho
          subst ho; rfl
        · cases ho
      · exact ih h3 o ho
    · cases h

theorem singlePrice_sells {mp : Int} {ps : List (Nat × Pool)} {pos : List Order} (h : singlePriceOrders mp ps = some pos)
    (hpp : ∀ e ∈ ps, ∀ pp, e.2.price = some pp → Dec.one ≤ pp) : ∀ o ∈ pos, o.dir = .sell → Dec.one ≤ o.price := by
  intro o ho hd
  rw [singlePrice_price h o ho]
  obtain ⟨e, he, _, _, h1⟩ := singlePrice_side h o ho
  obtain ⟨b, h2, h3⟩ := h1 hd
  obtain ⟨pp, h4, h5⟩ := sellUnder_price h2 h3
  exact le_trans (hpp e he pp h4) (le_of_lt h5)

/-- If everything sold has a price of at least one, the matching of a pair conserves base coin. -/
theorem keeperMatch_conserves {env : Env} (hsq : ∀ d, 0 ≤ d → 0 ≤ env.sqrt d) {pr : Params} (hpr : SaneParams pr) {os : List Order}
    {pools : List (Nat × Pool)} {last : Option Int} {out : MatchOut} (hl : ∀ o ∈ os, Live o) (hlast : ∀ p, last = some p → 0 < p)
    (hf : ∀ o ∈ os, o.openAmt = o.amount) (hr : ∀ e ∈ pools, 0 ≤ e.2.rx ∧ 0 ≤ e.2.ry)
    (hpp : ∀ e ∈ pools, ∀ pp, e.2.price = some pp → Dec.one ≤ pp) (ho : ∀ o ∈ os, o.dir = .sell → Dec.one ≤ o.price)
    (h : keeperMatch env pr os pools last = some (some out)) : baseImbalance out.orders = 0 := by
  have hpp0 : ∀ e ∈ pools, ∀ pp, e.2.price = some pp → 0 ≤ pp := fun e he pp hp => le_trans (by decide) (hpp e he pp hp)
  have fresh : ∀ {pos : List Order}, (∀ o ∈ pos, o.openAmt = o.amount) → ∀ i ∈ (bookOf (os ++ pos)).orders,
      (heapOf (os ++ pos) i).openAmt = (heapOf (os ++ pos) i).amount := by
    intro pos hpos i hi
    obtain ⟨_, b2, _⟩ := book_orders_nodup (heapOf (os ++ pos)) (List.nodup_range (n := (os ++ pos).length))
    have hlt := List.mem_range.1 (b2 i hi)
    by_cases hl : i < os.length
    · rw [heapOf_left hl]; exact hf _ (List.getElem_mem _)
    · exact hpos _ (heapOf_right (by omega) hlt)
  have sells : ∀ {pos : List Order}, (∀ o ∈ pos, o.dir = .sell → Dec.one ≤ o.price) → ∀ i ∈ List.range (os ++ pos).length,
      (heapOf (os ++ pos) i).dir = .sell → Dec.one ≤ (heapOf (os ++ pos) i).price := by
    intro pos hpos i hi
    have hlt := List.mem_range.1 hi
    by_cases hl : i < os.length
    · rw [heapOf_left hl]; exact ho _ (List.getElem_mem _)
    · exact hpos _ (heapOf_right (by omega) hlt)
  unfold keeperMatch at h
  split at h
  · split at h
    · cases h
    · split at h
      · cases h
      · rename_i mp hmp
        have hmp0 := findMatchPrice_pos hpr.prec hmp
        split at h
        · cases h
        · rename_i pos hpos
          simp only at h
          split at h
          · cases h
          · cases h
          · rename_i st hst
            have h := Option.some.inj (Option.some.inj h)
            subst h
            have hpo := singlePrice_pos hmp0 hpos
            have hal := all_live (pos := pos) hl (fun o ho => by obtain ⟨e, _, hi⟩ := hpo o ho; exact hi.live)
            obtain ⟨st', m, e1, _, _, e4, e5⟩ := matchAtSinglePrice_book hmp0 List.nodup_range hal
            have : some (st', m) = some (st, true) := e1.symm.trans hst
            simp only [Option.some.injEq, Prod.mk.injEq] at this
            obtain ⟨rfl, rfl⟩ := this
            show baseImbalance ((bookOf (os ++ pos)).orders.map st'.heap) = 0
            rw [imbalance_log (fresh fun o ho => by obtain ⟨e, _, hi⟩ := hpo o ho; exact hi.fresh.2.1) (fills_single hst)]
            rw [e4.base_eq (fun f hfm => ?_)]
            · omega
            · obtain ⟨h0, p, hp, hd, h1⟩ := e5 f hfm
              rw [h0]
              exact le_trans (sells (singlePrice_sells hpos hpp) p hp hd) h1
  · rename_i lp
    split at h
    · cases h
    · rename_i lo hi hlim
      obtain ⟨hlo, hhi⟩ := priceLimits_pos hpr (hlast lp rfl) hlim
      simp only at h
      split at h
      · cases h
      · rename_i r hr'
        split at h
        · rename_i hm
          have h := Option.some.inj (Option.some.inj h)
          subst h
          have hpo : ∀ o ∈ pools.flatMap (fun p => poolOrders env.sqrt p.1 p.2 lo hi pr.tickPrec), ∃ e ∈ pools, IsPoolOrder e.1 o := by
            intro o ho
            obtain ⟨p, hp, hop⟩ := List.mem_flatMap.1 ho
            exact ⟨p, hp, poolOrders_pos hlo hhi (hpp0 p hp) o hop⟩
          have hal := all_live hl (fun o ho => by obtain ⟨e, _, hi⟩ := hpo o ho; exact hi.live)
          obtain ⟨r', e1, _, _, e4, _, _, _, _, e9⟩ := obMatch_book (hlast lp rfl) List.nodup_range hal
          have : some r' = some r := e1.symm.trans hr'
          have := Option.some.inj this
          subst this
          rw [show baseImbalance _ = _ from
            imbalance_log (fresh fun o ho => by obtain ⟨e, _, hi⟩ := hpo o ho; exact hi.fresh.2.1) (fills_match hr')]
          rw [e4.base_eq (fun f hfm => ?_)]
          · omega
          · obtain ⟨p, hp, hd, h1⟩ := e9 f hfm
            refine le_trans (sells ?_ p hp hd) h1
            intro o ho hd
            obtain ⟨e, he, hop⟩ := List.mem_flatMap.1 ho
            obtain ⟨_, pp, h2, _, h3⟩ := poolOrders_price hsq hlo hhi (hr e he).1 (hr e he).2 (hpp0 e he) hop
            exact le_trans (hpp e he pp h2) (h3 hd)
        · cases h

end Verif.Dex

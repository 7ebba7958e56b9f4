import Verif.Proofs.Sides
import Verif.Props.Match
/-! # Filled buys and sells of one matching cross: whole books -/
namespace Verif.Amm
open Verif Verif.Spec Verif.Props

/-- After the single-price phase every filled order leaves nothing behind on the better ticks of its side. -/
theorem single_phase {h : Heap} {ps : List Nat} {L : Int} (hL : 0 < L) (hnd : ps.Nodup) (hl : ∀ p ∈ ps, Live (h p))
    (hdust : ∀ p ∈ ps, (h p).dir = .buy → matchableAmount (h p) L = 0 → DeadBuy L (h p))
    {st : MState} {m : Bool} (e : matchAtSinglePrice h (newOrderBook h ps) L = some (st, m)) :
    SideOk st.heap .buy (newOrderBook h ps).buys ∧ SideOk st.heap .sell (newOrderBook h ps).sells ∧
    (∀ q, (st.heap q).dir = (h q).dir ∧ (st.heap q).price = (h q).price) ∧
    (∀ f ∈ st.log, (h f.ptr).dir = .buy → BuyPassed L st.heap (newOrderBook h ps).buys (h f.ptr).price) ∧
    (∀ f ∈ st.log, (h f.ptr).dir = .sell → SellPassed L st.heap (newOrderBook h ps).sells (h f.ptr).price) ∧
    Crossing h st.log := by
  obtain ⟨sb, ss⟩ := book_sides hnd hl
  have hk := bookOk_new h ps
  rcases matchAtSinglePrice_spec hL sb ss with ⟨_, e'⟩ | ⟨m', fb, fsl, _, hm, e', i1, i2, s1, _, _, hg, p1, p2⟩
  · have := Option.some.inj (e'.symm.trans e)
    simp only [Prod.mk.injEq] at this
    rw [← this.1]
    exact ⟨sb, ss, fun q => ⟨rfl, rfl⟩, by simp, by simp, fun f hf => by simp at hf⟩
  · have := Option.some.inj (e'.symm.trans e)
    simp only [Prod.mk.injEq] at this
    rw [← this.1]
    have hlog : ((({ heap := h, diff := 0, log := [] } : MState).run (fb ++ fsl)).log) = fb ++ fsl := by simp [MState.run]
    have hheap : ∀ q, (({ heap := h, diff := 0, log := [] } : MState).run (fb ++ fsl)).heap q = applyFills (applyFills h fb) fsl q := by
      intro q; show applyFills h (fb ++ fsl) q = _; rw [applyFills_append]
    rw [buildSide_filter L hk.buys.sorted] at i1 p1
    rw [buildSide_filter L hk.sells.sorted] at i2 p2
    have hb : ∀ g ∈ fb, ∃ t ∈ (newOrderBook h ps).buys, g.ptr ∈ t.orders ∧ L ≤ t.price ∧ (h g.ptr).dir = .buy ∧ (h g.ptr).price = t.price := by
      intro g hg'
      obtain ⟨t, ht, hpt⟩ := List.mem_flatMap.1 (i1.sub g hg')
      have ht' := List.mem_filter.1 ht
      exact ⟨t, ht'.1, hpt, by simpa using ht'.2, sb.dirs _ (List.mem_flatMap.2 ⟨t, ht'.1, hpt⟩), sb.prices t ht'.1 _ hpt⟩
    have hs : ∀ g ∈ fsl, ∃ t ∈ (newOrderBook h ps).sells, g.ptr ∈ t.orders ∧ t.price ≤ L ∧ (h g.ptr).dir = .sell ∧ (h g.ptr).price = t.price := by
      intro g hg'
      obtain ⟨t, ht, hpt⟩ := List.mem_flatMap.1 (i2.sub g hg')
      have ht' := List.mem_filter.1 ht
      exact ⟨t, ht'.1, hpt, by simpa using ht'.2, ss.dirs _ (List.mem_flatMap.2 ⟨t, ht'.1, hpt⟩), ss.prices t ht'.1 _ hpt⟩
    refine ⟨sb.applyGood hg.valid, ss.applyGood hg.valid, ?_, ?_, ?_, ?_⟩
    · intro q
      show (applyFills h (fb ++ fsl) q).dir = _ ∧ (applyFills h (fb ++ fsl) q).price = _
      rw [applyFills_dir, applyFills_price]; exact ⟨rfl, rfl⟩
    · rw [hlog]
      intro f hf hd
      rcases List.mem_append.1 hf with hf | hf
      · obtain ⟨tf, htf, hft, hLf, _, hpf⟩ := hb f hf
        right
        refine ⟨by omega, fun tq htq hlt q hq => ?_⟩
        have hqm := eligible_mem (hk.buys.perm.mem_iff.1 (List.mem_flatMap.2 ⟨tq, htq, hq⟩))
        have htq' : tq ∈ (newOrderBook h ps).buys.filter
            (fun t => if false then decide (t.price ≤ L) else decide (L ≤ t.price)) := by
          rw [List.mem_filter]; refine ⟨htq, ?_⟩; simp; omega
        have htf' : tf ∈ (newOrderBook h ps).buys.filter
            (fun t => if false then decide (t.price ≤ L) else decide (L ≤ t.price)) := by
          rw [List.mem_filter]; refine ⟨htf, ?_⟩; simp; omega
        obtain ⟨pre, post, hsplit, hin⟩ := split_before (hk.buys.sorted.filter _) htq' htf' (by simp [priceBefore]; omega)
        have hz := (p1 pre tq post hsplit f hf (List.mem_flatMap.2 ⟨tf, hin, hft⟩) q hq).1
        rw [hheap, applyFills_other (h := applyFills h fb), hz]
        · exact filled_dead_buy ((live_iff _).1 (hl q hqm.1)) hqm.2 hL (hdust q hqm.1 hqm.2)
        · intro g hg' e''
          obtain ⟨_, _, _, _, hgd, _⟩ := hs g hg'
          rw [e'', hqm.2] at hgd; cases hgd
      · obtain ⟨_, _, _, _, hgd, _⟩ := hs f hf
        rw [hgd] at hd; cases hd
    · rw [hlog]
      intro f hf hd
      rcases List.mem_append.1 hf with hf | hf
      · obtain ⟨_, _, _, _, hgd, _⟩ := hb f hf
        rw [hgd] at hd; cases hd
      · obtain ⟨tf, htf, hft, hLf, _, hpf⟩ := hs f hf
        right
        refine ⟨by omega, fun tq htq hlt q hq => ?_⟩
        have hqm := eligible_mem (hk.sells.perm.mem_iff.1 (List.mem_flatMap.2 ⟨tq, htq, hq⟩))
        have htq' : tq ∈ (newOrderBook h ps).sells.filter
            (fun t => if true then decide (t.price ≤ L) else decide (L ≤ t.price)) := by
          rw [List.mem_filter]; refine ⟨htq, ?_⟩; simp; omega
        have htf' : tf ∈ (newOrderBook h ps).sells.filter
            (fun t => if true then decide (t.price ≤ L) else decide (L ≤ t.price)) := by
          rw [List.mem_filter]; refine ⟨htf, ?_⟩; simp; omega
        obtain ⟨pre, post, hsplit, hin⟩ := split_before (hk.sells.sorted.filter _) htq' htf' (by simp [priceBefore]; omega)
        have hz := (p2 pre tq post hsplit f hf (List.mem_flatMap.2 ⟨tf, hin, hft⟩) q hq).1
        rw [hheap, hz]
        have hsame : applyFills h fb q = h q := by
          apply applyFills_other
          intro g hg' e''
          obtain ⟨_, _, _, _, hgd, _⟩ := hb g hg'
          rw [e'', hqm.2] at hgd; cases hgd
        rw [hsame]
        exact filled_dead_sell ((live_iff _).1 (hl q hqm.1)) hqm.2
    · rw [hlog]
      intro f hf g hg' hdf hdg
      rcases List.mem_append.1 hf with hf | hf
      · rcases List.mem_append.1 hg' with hg' | hg'
        · obtain ⟨_, _, _, _, hgd, _⟩ := hb g hg'
          rw [hgd] at hdg; cases hdg
        · obtain ⟨t, _, _, h1, _, h2⟩ := hb f hf
          obtain ⟨t', _, _, h3, _, h4⟩ := hs g hg'
          omega
      · obtain ⟨_, _, _, _, hgd, _⟩ := hs f hf
        rw [hgd] at hdf; cases hdf

/-- One matching of a book without dust buys: every filled sell asks at most what every filled buy bids. -/
theorem match_crossing {h : Heap} {ps : List Nat} {L : Int} (hL : 0 < L) (hnd : ps.Nodup) (hl : ∀ p ∈ ps, Live (h p))
    (hdust : ∀ p ∈ ps, (h p).dir = .buy → matchableAmount (h p) L = 0 → DeadBuy L (h p))
    {r : MatchResult} (e : obMatch h (newOrderBook h ps) L = some r) : Crossing h r.st.log := by
  unfold obMatch at e
  split at e
  · have := Option.some.inj e
    rw [← this]
    intro f hf; simp at hf
  · simp only at e
    split at e
    · cases e
    · rename_i st m hst
      obtain ⟨k1, k2, k3, k4, k5, k6⟩ := single_phase hL hnd hl hdust hst
      split at e
      · have := Option.some.inj e
        rw [← this]; exact k6
      · split at e
        · cases e
        · rename_i st' mp m' hloop
          have := Option.some.inj e
          rw [← this]
          have hk := bookOk_new h ps
          refine loop_crossing hL _ k1 k2 ?_ ?_ k3 k4 k5 k6 hloop
          · exact hk.buys.sorted.imp (fun {a b} hab => by simpa [priceBefore] using hab)
          · exact hk.sells.sorted.imp (fun {a b} hab => by simpa [priceBefore] using hab)

/-- From one quote coin per base coin on there are no dust buys. -/
theorem no_dust_high {o : Order} (h : Live o) (hd : o.dir = .buy) {L : Int} (hL : Dec.one ≤ L) (hz : matchableAmount o L = 0) :
    DeadBuy L o := by
  intro p hp
  have h1 : (0 : Int) < Dec.one := by decide
  have hL0 : 0 < L := by omega
  have hp0 : 0 < p := by omega
  have hok := (live_iff o).1 h
  rw [matchable_buy hok hd hL0] at hz
  rw [matchable_buy hok hd hp0]
  have a0 : 0 ≤ (o.offer - o.paid) * Dec.one := mul_nonneg (by have := h.paid_le; omega) (le_of_lt h1)
  have a1 : (o.offer - o.paid) * Dec.one / p ≤ (o.offer - o.paid) * Dec.one / L := by
    rw [Int.le_ediv_iff_mul_le hL0]
    have b1 := Int.ediv_mul_le ((o.offer - o.paid) * Dec.one) (show p ≠ 0 by omega)
    have b2 : 0 ≤ (o.offer - o.paid) * Dec.one / p := Int.ediv_nonneg a0 (le_of_lt hp0)
    have b3 := Int.mul_le_mul_of_nonneg_left hp b2
    omega
  have a2 : 0 ≤ (o.offer - o.paid) * Dec.one / p := Int.ediv_nonneg a0 (le_of_lt hp0)
  have hop := h.open_nonneg
  have hm : min o.openAmt ((o.offer - o.paid) * Dec.one / L) = 0 := by
    by_contra hne
    have hpos : 0 < min o.openAmt ((o.offer - o.paid) * Dec.one / L) := by
      have : 0 ≤ (o.offer - o.paid) * Dec.one / L := Int.ediv_nonneg a0 (le_of_lt hL0)
      omega
    have := quoteFloor_pos_of_one_le hL hpos
    rw [if_neg (by omega)] at hz
    omega
  have : min o.openAmt ((o.offer - o.paid) * Dec.one / p) = 0 := by omega
  rw [this]; simp [quoteFloor_zero]

end Verif.Amm

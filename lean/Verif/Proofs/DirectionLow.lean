import Verif.Proofs.Direction
/-! # The first stage of matching below price one, when the sells are the smaller side -/
namespace Verif.Amm
open Verif

theorem fulfillFills_append (h : Heap) (ps qs : List Nat) (price : Int) :
    fulfillFills h (ps ++ qs) price = fulfillFills h ps price ++ fulfillFills h qs price := by
  unfold fulfillFills; rw [List.filter_append, List.map_append]

theorem matchable_le_total {h : Heap} {price : Int} (hp : 0 < price) {ps : List Nat} (hk : HeapOk h ps) {q : Nat} (hq : q ∈ ps) :
    matchableAmount (h q) price ≤ totalMatchable h ps price := by
  have e : totalMatchable h ps price = matchableAmount (h q) price + totalMatchable h (ps.erase q) price := by
    rw [totalMatchable_perm (List.perm_cons_erase hq), totalMatchable_eq, totalMatchable_eq]; simp
  have := totalMatchable_nonneg hp (fun p hp' => hk p (List.mem_of_mem_erase hp') : HeapOk h (ps.erase q))
  omega

theorem fulfillFills_zero {h : Heap} {price : Int} (hp : 0 < price) {ps : List Nat} (hk : HeapOk h ps)
    (h0 : totalMatchable h ps price = 0) : fulfillFills h ps price = [] := by
  unfold fulfillFills
  rw [List.map_eq_nil_iff, List.filter_eq_nil_iff]
  intro q hq
  have := matchable_le_total hp hk hq
  simp; omega

/-- Distributing exactly what some leading ticks can take fills all of their orders. -/
theorem distributeToTicks_exact {price : Int} (hp : 0 < price) (post : List Tick) : ∀ (ts : List Tick) (st : MState) (rem : Int),
    (ts.flatMap (·.orders)).Nodup → HeapOk st.heap (ts.flatMap (·.orders)) → 0 < rem →
    rem = totalMatchable st.heap (ts.flatMap (·.orders)) price →
    distributeToTicks st (ts ++ post) rem price = some (st.run (fulfillFills st.heap (ts.flatMap (·.orders)) price)) := by
  intro ts
  induction ts with
  | nil => intro st rem _ _ h1 h2; simp [totalMatchable] at h2; omega
  | cons t ts ih =>
    intro st rem hnd hk h1 h2
    rw [List.flatMap_cons] at hnd hk h2 ⊢
    rw [totalMatchable_append] at h2
    rw [List.nodup_append] at hnd
    obtain ⟨nd1, nd2, nd3⟩ := hnd
    have hk1 : HeapOk st.heap t.orders := fun p hp' => hk p (List.mem_append_left _ hp')
    have hk2 : HeapOk st.heap (ts.flatMap (·.orders)) := fun p hp' => hk p (List.mem_append_right _ hp')
    have ht1 := totalMatchable_nonneg hp hk1
    have ht2 := totalMatchable_nonneg hp hk2
    rw [List.cons_append]
    unfold distributeToTicks
    simp only
    rw [if_pos (by omega), fulfillOrders_eq st t.orders price nd1, fulfillFills_append]
    simp only
    by_cases hz : rem - totalMatchable st.heap t.orders price = 0
    · rw [if_pos hz, fulfillFills_zero hp hk2 (by omega), List.append_nil]
    · rw [if_neg hz]
      have hin := fulfillFills_indep st.heap t.orders price nd1
      have hsame : ∀ p ∈ ts.flatMap (·.orders), (st.run (fulfillFills st.heap t.orders price)).heap p = st.heap p := by
        intro p hp'
        apply applyFills_other
        intro f hf e
        exact nd3 _ (hin.sub f hf) p hp' e
      rw [ih _ _ nd2 (fun p hp' => by rw [hsame p hp']; exact hk2 p hp') (by omega)
        (by rw [totalMatchable_congr hsame]; omega), fulfillFills_congr hsame, run_append]

/-- If the sells can take no more than the buys, the matchable amount at a single price is what the sells can take. -/
theorem findLoop_sells {h : Heap} {price : Int} (hp : 0 < price) : ∀ (fuel : Nat) (bs ss : List Tick),
    HeapOk h (bs.flatMap (·.orders)) → HeapOk h (ss.flatMap (·.orders)) → bs ≠ [] → ss ≠ [] →
    bs.length + ss.length < fuel → ticksTotal h ss price ≤ ticksTotal h bs price →
    (findLoop h price fuel bs ss).getD 0 = ticksTotal h ss price := by
  intro fuel
  induction fuel with
  | zero => intro bs ss _ _ _ _ h1; omega
  | succ n ih =>
    intro bs ss hkb hks hbne hsne hlen hle
    have ns := ticksTotal_nonneg hp hks
    unfold findLoop
    cases hb : sideStep h false bs (ticksTotal h ss price) price with
    | none =>
      show (0 : Int) = _
      unfold sideStep at hb
      split at hb
      · rename_i hl; rw [List.getLast?_eq_none_iff] at hl; exact absurd hl hbne
      · rename_i t ht
        have hdl := ticksTotal_dropLast (h := h) (price := price) ht
        simp only [Bool.false_eq_true, if_false, false_and, or_false] at hb
        split at hb
        · rename_i hc
          split at hb
          · rename_i hl
            have hd : bs.dropLast = [] := by
              rw [← List.length_eq_zero_iff, List.length_dropLast]; omega
            rw [hd] at hdl
            have : ticksTotal h [] price = 0 := rfl
            omega
          · cases hb
        · cases hb
    | some x =>
      obtain ⟨m1, bs', d1⟩ := x
      simp only
      obtain ⟨b1, b2, b3⟩ := sideStep_spec hb
      have hbt : (d1 = false → bs' = bs) ∧ (d1 = true → bs'.length + 1 = bs.length) ∧ bs' ≠ [] ∧
          ticksTotal h ss price ≤ ticksTotal h bs' price ∧ (∀ p ∈ bs'.flatMap (·.orders), p ∈ bs.flatMap (·.orders)) := by
        cases d1 with
        | false =>
          have e := (b2 rfl).1
          refine ⟨fun _ => e, by simp, by rw [e]; exact hbne, by rw [e]; exact hle, by rw [e]; simp⟩
        | true =>
          obtain ⟨e, hl, t, ht, hc⟩ := b3 rfl
          refine ⟨by simp, fun _ => by rw [e, List.length_dropLast]; omega, ?_, ?_, ?_⟩
          · intro e2
            rw [e, ← List.length_eq_zero_iff, List.length_dropLast] at e2
            omega
          · rcases hc with hc | hc
            · omega
            · cases hc.1
          · rw [e]
            intro p hp'
            obtain ⟨t', ht', hpt⟩ := List.mem_flatMap.1 hp'
            exact List.mem_flatMap.2 ⟨t', (List.dropLast_sublist _).subset ht', hpt⟩
      obtain ⟨bt1, bt2, bt3, bt4, bt5⟩ := hbt
      -- a dropped sell tick has nothing to match
      have hzero : ∀ t, ss.getLast? = some t → (ticksTotal h ss price - totalMatchable h t.orders price ≥ ticksTotal h ss price ∨
          quoteFloor price (ticksTotal h ss price - (ticksTotal h ss price - totalMatchable h t.orders price)) = 0) →
          totalMatchable h t.orders price = 0 := by
        intro t ht hc
        have hk1 : HeapOk h t.orders := fun p hp' => hks p (List.mem_flatMap.2 ⟨t, List.mem_of_getLast? ht, hp'⟩)
        have nn := totalMatchable_nonneg hp hk1
        rcases hc with hc | hc
        · omega
        · rw [sub_sub_cancel] at hc
          by_contra hne
          have hex : ∃ q ∈ t.orders, 0 < matchableAmount (h q) price := by
            by_contra hno
            push Not at hno
            apply hne
            rw [totalMatchable_eq]
            apply List.sum_eq_zero
            intro x hx
            obtain ⟨q, hq, rfl⟩ := List.mem_map.1 hx
            exact le_antisymm (hno q hq) (matchable_nonneg (hk1 q hq) hp)
          obtain ⟨q, hq, hq0⟩ := hex
          have h1 := matchable_worth (hk1 q hq) hp hq0
          have h2 := quoteFloor_mono (p := price) (le_of_lt hp) (le_of_lt hq0) (matchable_le_total hp hk1 hq)
          omega
      cases hs : sideStep h true ss (ticksTotal h bs' price) price with
      | none =>
        show (0 : Int) = _
        unfold sideStep at hs
        split at hs
        · rename_i hl; rw [List.getLast?_eq_none_iff] at hl; exact absurd hl hsne
        · rename_i t ht
          have hdl := ticksTotal_dropLast (h := h) (price := price) ht
          simp only [if_true, true_and, min_eq_right bt4] at hs
          split at hs
          · rename_i hc
            split at hs
            · rename_i hl
              have hd : ss.dropLast = [] := by
                rw [← List.length_eq_zero_iff, List.length_dropLast]; omega
              rw [hd] at hdl
              have : ticksTotal h [] price = 0 := rfl
              have := hzero t ht hc
              omega
            · cases hs
          · cases hs
      | some y =>
        obtain ⟨m2, ss', d2⟩ := y
        simp only
        obtain ⟨s1, s2, s3⟩ := sideStep_spec hs
        rw [min_eq_left bt4] at s1
        subst s1
        by_cases hd : d1 = false ∧ d2 = false
        · rw [if_pos hd]; rfl
        · rw [if_neg hd]
          have hst : ss'.length ≤ ss.length ∧ (d2 = true → ss'.length + 1 = ss.length) ∧ ss' ≠ [] ∧
              ticksTotal h ss' price = ticksTotal h ss price ∧ (∀ p ∈ ss'.flatMap (·.orders), p ∈ ss.flatMap (·.orders)) := by
            cases d2 with
            | false =>
              have e := (s2 rfl).1
              refine ⟨by rw [e], by simp, by rw [e]; exact hsne, by rw [e], by rw [e]; simp⟩
            | true =>
              obtain ⟨e, hl, t, ht, hc⟩ := s3 rfl
              have hdl := ticksTotal_dropLast (h := h) (price := price) ht
              rw [← e] at hdl
              have := hzero t ht (by
                rcases hc with hc | hc
                · left; omega
                · right; exact hc.2)
              refine ⟨by rw [e, List.length_dropLast]; omega, fun _ => by rw [e, List.length_dropLast]; omega, ?_, by omega, ?_⟩
              · intro e2
                rw [e, ← List.length_eq_zero_iff, List.length_dropLast] at e2
                omega
              · rw [e]
                intro p hp'
                obtain ⟨t', ht', hpt⟩ := List.mem_flatMap.1 hp'
                exact List.mem_flatMap.2 ⟨t', (List.dropLast_sublist _).subset ht', hpt⟩
          obtain ⟨st0, st2, st3, st4, st5⟩ := hst
          have hshort : bs'.length + ss'.length < n := by
            cases d1 with
            | false =>
              have := bt1 rfl
              cases d2 with
              | false => exact absurd ⟨rfl, rfl⟩ hd
              | true => have := st2 rfl; subst bs'; omega
            | true => have := bt2 rfl; omega
          rw [ih bs' ss' (fun p hp' => hkb p (bt5 p hp')) (fun p hp' => hks p (st5 p hp')) bt3 st3 hshort (by omega), st4]

/-- `MatchAtSinglePrice` leaves nothing matchable on the sell side if that is the smaller one, whatever the price. -/
theorem single_exhausts_sells {h : Heap} {ob : OrderBook} {price : Int} (hp : 0 < price)
    (hb : SideOk h .buy ob.buys) (hs : SideOk h .sell ob.sells)
    {st : MState} {m : Bool} (e : matchAtSinglePrice h ob price = some (st, m)) (hbne : buildSide false ob.buys price ≠ [])
    (hle : ticksTotal h (buildSide true ob.sells price) price ≤ ticksTotal h (buildSide false ob.buys price) price) :
    ∀ t ∈ buildSide true ob.sells price, ∀ q ∈ t.orders, matchableAmount (st.heap q) t.price = 0 := by
  obtain ⟨ps, eps⟩ := buildSide_prefix true ob.sells price
  obtain ⟨pb, epb⟩ := buildSide_prefix false ob.buys price
  have hls : ∀ t ∈ buildSide true ob.sells price, t.price ≤ price := fun t ht => by simpa using buildSide_limit ht
  set S := buildSide true ob.sells price with hS
  set B := buildSide false ob.buys price with hB
  have hb' : SideOk h .buy B := by rw [epb] at hb; exact hb.prefix
  have hs' : SideOk h .sell S := by rw [eps] at hs; exact hs.prefix
  suffices hz : ∀ q ∈ S.flatMap (·.orders), OrderOk (st.heap q) ∧ (st.heap q).dir = .sell ∧ (st.heap q).price = (h q).price ∧
      matchableAmount (st.heap q) price = 0 by
    intro t ht q hq
    obtain ⟨z1, z2, z3, z4⟩ := hz q (List.mem_flatMap.2 ⟨t, ht, hq⟩)
    have ep := hs'.prices t ht q hq
    rw [ep] at z3
    rw [← z3]
    exact exhausted_sell z1 z2 (by rw [z3]; exact hls t ht) z4
  by_cases hsne : S = []
  · rw [hsne]; simp
  have hfind := findLoop_sells hp (B.length + S.length + 1) B S hb'.ok hs'.ok hbne hsne (by omega) hle
  have ef : findMatchableAmountAtSinglePrice h ob price = findLoop h price (B.length + S.length + 1) B S := by
    unfold findMatchableAmountAtSinglePrice
    simp only
    rw [if_neg hbne, if_neg hsne]
  unfold matchAtSinglePrice at e
  simp only [ef] at e
  cases ec : findLoop h price (B.length + S.length + 1) B S with
  | none =>
    rw [ec] at e hfind
    simp only [Option.some.injEq, Prod.mk.injEq] at e
    rw [← e.1]
    intro q hq
    have h0 : ticksTotal h S price = 0 := hfind.symm
    rw [ticksTotal_eq] at h0
    have h1 := matchable_le_total hp hs'.ok hq
    have h2 := matchable_nonneg (hs'.ok q hq) hp
    exact ⟨hs'.ok q hq, hs'.dirs q hq, rfl, by show matchableAmount (h q) price = 0; omega⟩
  | some mm =>
    rw [ec] at e hfind
    simp only at e
    have hm : mm = ticksTotal h S price := hfind
    obtain ⟨m0, m1, m2, _⟩ := findLoop_spec hp _ B S mm hb'.ok hs'.ok ec
    obtain ⟨fb, e1, e2, _, _, _⟩ := distributeToTicks_spec hp ob.buys { heap := h, diff := 0, log := [] } mm hb.nodup hb.ok (le_of_lt m0)
    rw [e1] at e
    simp only at e
    have hs2 : SideOk (applyFills h fb) .sell S := hs'.apply hp e2
    have hdisj : ∀ p ∈ S.flatMap (·.orders), applyFills h fb p = h p := by
      intro p hp'
      apply applyFills_other
      intro f hf' e'
      have h1 := hb.dirs _ (e2.sub f hf')
      have h2 := hs'.dirs _ hp'
      rw [e', h2] at h1; cases h1
    rw [eps, distributeToTicks_exact hp ps S _ mm hs'.nodup hs2.ok m0
      (by show mm = totalMatchable (applyFills h fb) _ price; rw [totalMatchable_congr hdisj, ← ticksTotal_eq]; exact hm)] at e
    simp only [Option.some.injEq, Prod.mk.injEq] at e
    rw [← e.1]
    intro q hq
    have hi := fulfillFills_indep (applyFills h fb) (S.flatMap (·.orders)) price hs'.nodup
    refine ⟨hi.heapOk hp hs2.ok q hq, ?_, ?_, fulfillFills_exhaust hp hs2.ok hs'.nodup q hq⟩
    · show (applyFills (applyFills h fb) _ q).dir = _
      rw [applyFills_dir, applyFills_dir]; exact hs'.dirs q hq
    · show (applyFills (applyFills h fb) _ q).price = _
      rw [applyFills_price, applyFills_price]

end Verif.Amm

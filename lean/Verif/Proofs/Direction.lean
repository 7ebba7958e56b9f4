import Verif.Proofs.Uncross
/-! # The prices of the second stage of `Match` (C66) -/
namespace Verif.Amm
open Verif Verif.Spec

/-- The loop of `Match` fills only at prices of the side it walks along that have something matchable left. -/
theorem loop_prices (dir : PriceDir) (Q : Int → Prop) : ∀ (fuel : Nat) (st : MState) (bs ss : List Tick) (mp : Int) (matched : Bool)
    (st' : MState) (mp' : Int) (m' : Bool), SideOk st.heap .buy bs → SideOk st.heap .sell ss →
    (dir = .increasing → ∀ t ∈ ss, ¬ Q t.price → ∀ q ∈ t.orders, matchableAmount (st.heap q) t.price = 0) →
    (dir ≠ .increasing → ∀ t ∈ bs, ¬ Q t.price → ∀ q ∈ t.orders, matchableAmount (st.heap q) t.price = 0) →
    matchLoop dir fuel st bs ss mp matched = some (st', mp', m') →
    (∀ f ∈ st'.log, f ∈ st.log ∨ Q f.price) ∧ (mp' = mp ∨ Q mp') := by
  intro fuel
  induction fuel with
  | zero =>
    intro st bs ss mp matched st' mp' m' _ _ _ _ e
    simp only [matchLoop, Option.some.injEq, Prod.mk.injEq] at e
    obtain ⟨rfl, rfl, rfl⟩ := e
    exact ⟨fun f hf => Or.inl hf, Or.inl rfl⟩
  | succ n ih =>
    intro st bs ss mp matched st' mp' m' hb hs z1 z2 e
    cases bs with
    | nil =>
      simp only [matchLoop, Option.some.injEq, Prod.mk.injEq] at e
      obtain ⟨rfl, rfl, rfl⟩ := e
      exact ⟨fun f hf => Or.inl hf, Or.inl rfl⟩
    | cons bt bs =>
      cases ss with
      | nil =>
        simp only [matchLoop, Option.some.injEq, Prod.mk.injEq] at e
        obtain ⟨rfl, rfl, rfl⟩ := e
        exact ⟨fun f hf => Or.inl hf, Or.inl rfl⟩
      | cons sk ss =>
        obtain ⟨b1, b2, b3, b4, b5, b6⟩ := hb.head
        obtain ⟨s1, s2, s3, s4, s5, s6⟩ := hs.head
        unfold matchLoop at e
        by_cases hcross : bt.price < sk.price
        · rw [if_pos hcross] at e
          simp only [Option.some.injEq, Prod.mk.injEq] at e
          obtain ⟨rfl, rfl, rfl⟩ := e
          exact ⟨fun f hf => Or.inl hf, Or.inl rfl⟩
        · rw [if_neg hcross] at e
          simp only at e
          set p := (if dir = .increasing then sk.price else bt.price) with hpdef
          have hp : 0 < p := by rw [hpdef]; split <;> omega
          have hpb : p ≤ bt.price := by rw [hpdef]; split <;> omega
          have hps : sk.price ≤ p := by rw [hpdef]; split <;> omega
          set bAmt := totalMatchable st.heap bt.orders p with hbA
          set sAmt := totalMatchable st.heap sk.orders p with hsA
          by_cases hb0 : ¬ 0 < bAmt
          · rw [if_pos hb0] at e
            exact ih st bs (sk :: ss) mp matched st' mp' m' hb.tail hs z1 (fun h t ht => z2 h t (List.mem_cons_of_mem _ ht)) e
          · rw [if_neg hb0] at e
            by_cases hs0 : ¬ 0 < sAmt
            · rw [if_pos hs0] at e
              exact ih st (bt :: bs) ss mp matched st' mp' m' hb hs.tail (fun h t ht => z1 h t (List.mem_cons_of_mem _ ht)) z2 e
            · rw [if_neg hs0] at e
              have hmb : (if bAmt ≤ sAmt then bAmt else sAmt) = min bAmt sAmt := by split <;> omega
              have hms : (if sAmt ≤ bAmt then sAmt else bAmt) = min bAmt sAmt := by split <;> omega
              rw [hmb, hms] at e
              have hmpos : 0 < min bAmt sAmt := by omega
              have hzero : ∀ {os : List Nat}, (∀ q ∈ os, matchableAmount (st.heap q) p = 0) → totalMatchable st.heap os p = 0 := by
                intro os h0
                induction os with
                | nil => rfl
                | cons a os iho =>
                  have e1 := h0 a (by simp)
                  have e2 := iho (fun q hq => h0 q (by simp [hq]))
                  rw [totalMatchable_eq] at e2 ⊢; simp [e1, e2]
              have hQ : Q p := by
                by_contra hn
                by_cases hd : dir = .increasing
                · have hpe : p = sk.price := by rw [hpdef, if_pos hd]
                  have := hzero (os := sk.orders) (fun q hq => by
                    rw [hpe]; exact z1 hd sk (by simp) (by rw [← hpe]; exact hn) q hq)
                  omega
                · have hpe : p = bt.price := by rw [hpdef, if_neg hd]
                  have := hzero (os := bt.orders) (fun q hq => by
                    rw [hpe]; exact z2 hd bt (by simp) (by rw [← hpe]; exact hn) q hq)
                  omega
              obtain ⟨fb, f1, f2, f3, f4, f5, _⟩ := distributeToTick_spec hp st bt (min bAmt sAmt) b1 b2 (by omega) (by omega)
              rw [f1] at e
              simp only at e
              have hdisj : ∀ q ∈ sk.orders, applyFills st.heap fb q = st.heap q := by
                intro q hq
                apply applyFills_other
                intro f hf e
                have h1 := b3 _ (f2.sub f hf)
                have h2 := s3 _ hq
                rw [e, h2] at h1; cases h1
              have hks : HeapOk (applyFills st.heap fb) sk.orders := f2.heapOk hp s2
              have hsA' : totalMatchable (applyFills st.heap fb) sk.orders p = sAmt := by
                rw [totalMatchable_congr hdisj]
              obtain ⟨fsl, g1, g2, g3, g4, g5, _⟩ := distributeToTick_spec hp (st.run fb) sk (min bAmt sAmt) s1 hks (by omega)
                (by show _ ≤ totalMatchable (applyFills st.heap fb) sk.orders p; rw [hsA']; omega)
              rw [g1] at e
              simp only at e
              rw [run_append] at e
              have hgood : Good st.heap (fb ++ fsl) := by
                apply good_step hp hmpos (B := bt.orders) (S := sk.orders) _ _ f2 g2 (f4 hmpos (Or.inl b3)) g3 (fun h1 => g4 hmpos (Or.inr h1))
                · intro q hq; exact ⟨b3 q hq, by rw [b4 q hq]; exact hpb⟩
                · intro q hq; exact ⟨s3 q hq, by rw [s4 q hq]; exact hps⟩
              have hb2 : SideOk (st.run (fb ++ fsl)).heap .buy (bt :: bs) := hb.applyGood hgood.valid
              have hs2 : SideOk (st.run (fb ++ fsl)).heap .sell (sk :: ss) := hs.applyGood hgood.valid
              -- orders outside the two ticks are untouched
              have hsame : ∀ q, q ∉ bt.orders → q ∉ sk.orders → (st.run (fb ++ fsl)).heap q = st.heap q := by
                intro q h1 h2
                apply applyFills_other
                intro f hf e
                rcases List.mem_append.1 hf with hf | hf
                · exact h1 (e ▸ f2.sub f hf)
                · exact h2 (e ▸ g2.sub f hf)
              have z1' : dir = .increasing → ∀ t ∈ sk :: ss, ¬ Q t.price → ∀ q ∈ t.orders,
                  matchableAmount ((st.run (fb ++ fsl)).heap q) t.price = 0 := by
                intro hd t ht hn q hq
                have htk : t ∈ ss := by
                  rcases List.mem_cons.1 ht with rfl | h
                  · exact absurd (by rw [hpdef, if_pos hd] at hQ; exact hQ) hn
                  · exact h
                have hqs : q ∈ ss.flatMap (·.orders) := List.mem_flatMap.2 ⟨t, htk, hq⟩
                rw [hsame q (fun h => by
                    have h1 := b3 q h
                    have h2 := hs.dirs q (by rw [List.flatMap_cons]; exact List.mem_append_right _ hqs)
                    rw [h1] at h2; cases h2) (fun h => s6 q h hqs)]
                exact z1 hd t ht hn q hq
              have z2' : dir ≠ .increasing → ∀ t ∈ bt :: bs, ¬ Q t.price → ∀ q ∈ t.orders,
                  matchableAmount ((st.run (fb ++ fsl)).heap q) t.price = 0 := by
                intro hd t ht hn q hq
                have htk : t ∈ bs := by
                  rcases List.mem_cons.1 ht with rfl | h
                  · exact absurd (by rw [hpdef, if_neg hd] at hQ; exact hQ) hn
                  · exact h
                have hqs : q ∈ bs.flatMap (·.orders) := List.mem_flatMap.2 ⟨t, htk, hq⟩
                rw [hsame q (fun h => b6 q h hqs) (fun h => by
                    have h1 := s3 q h
                    have h2 := hb.dirs q (by rw [List.flatMap_cons]; exact List.mem_append_right _ hqs)
                    rw [h1] at h2; cases h2)]
                exact z2 hd t ht hn q hq
              have fin : ∀ B S, SideOk (st.run (fb ++ fsl)).heap .buy B → SideOk (st.run (fb ++ fsl)).heap .sell S →
                  (∀ t ∈ B, t ∈ bt :: bs) → (∀ t ∈ S, t ∈ sk :: ss) →
                  matchLoop dir n (st.run (fb ++ fsl)) B S p true = some (st', mp', m') →
                  (∀ f ∈ st'.log, f ∈ st.log ∨ Q f.price) ∧ (mp' = mp ∨ Q mp') := by
                intro B S hB hS sB sS e
                obtain ⟨r1, r2⟩ := ih _ B S p true st' mp' m' hB hS (fun hd t ht => z1' hd t (sS t ht))
                  (fun hd t ht => z2' hd t (sB t ht)) e
                refine ⟨fun f hf => ?_, Or.inr ?_⟩
                · rcases r1 f hf with h | h
                  · have h : f ∈ st.log ++ (fb ++ fsl) := h
                    rcases List.mem_append.1 h with h | h
                    · exact Or.inl h
                    · right
                      rcases List.mem_append.1 h with h | h
                      · rw [f2.price_eq f h]; exact hQ
                      · rw [g2.price_eq f h]; exact hQ
                  · exact Or.inr h
                · rcases r2 with h | h
                  · rw [h]; exact hQ
                  · exact h
              refine fin _ _ ?_ ?_ ?_ ?_ e
              · split
                · exact hb2.tail
                · exact hb2
              · split
                · exact hs2.tail
                · exact hs2
              · intro t ht
                split at ht
                · exact List.mem_cons_of_mem _ ht
                · exact ht
              · intro t ht
                split at ht
                · exact List.mem_cons_of_mem _ ht
                · exact ht

/-- Fills at one price for the smaller of the two sides' totals leave nothing matchable on that side. -/
theorem exhaust_core {h : Heap} {bs ss : List Tick} {price : Int} (h1 : Dec.one ≤ price)
    (hb : SideOk h .buy bs) (hs : SideOk h .sell ss)
    {fb fsl : List Fill} (i1 : Indep h price ((buildSide false bs price).flatMap (·.orders)) fb)
    (i2 : Indep (applyFills h fb) price ((buildSide true ss price).flatMap (·.orders)) fsl)
    (p1 : PricePriority h price (buildSide false bs price) fb)
    (p2 : PricePriority (applyFills h fb) price (buildSide true ss price) fsl)
    (m1 : amtSum fb = min (ticksTotal h (buildSide false bs price) price) (ticksTotal h (buildSide true ss price) price))
    (m2 : amtSum fsl = min (ticksTotal h (buildSide false bs price) price) (ticksTotal h (buildSide true ss price) price)) :
    (ticksTotal h (buildSide true ss price) price ≤ ticksTotal h (buildSide false bs price) price →
      ∀ t ∈ buildSide true ss price, ∀ q ∈ t.orders, matchableAmount (applyFills h (fb ++ fsl) q) t.price = 0) ∧
    (ticksTotal h (buildSide false bs price) price ≤ ticksTotal h (buildSide true ss price) price →
      ∀ t ∈ buildSide false bs price, ∀ q ∈ t.orders, matchableAmount (applyFills h (fb ++ fsl) q) t.price = 0) := by
  have hp : 0 < price := lt_of_lt_of_le one_pos h1
  have subB : ∀ p ∈ (buildSide false bs price).flatMap (·.orders), p ∈ bs.flatMap (·.orders) := by
    intro p hp
    obtain ⟨post, e⟩ := buildSide_prefix false bs price
    rw [e, List.flatMap_append]; exact List.mem_append_left _ hp
  have subS : ∀ p ∈ (buildSide true ss price).flatMap (·.orders), p ∈ ss.flatMap (·.orders) := by
    intro p hp
    obtain ⟨post, e⟩ := buildSide_prefix true ss price
    rw [e, List.flatMap_append]; exact List.mem_append_left _ hp
  have sameS : ∀ q ∈ ss.flatMap (·.orders), applyFills h fb q = h q := by
    intro q hq
    apply applyFills_other
    intro f hf e
    have a1 := hb.dirs _ (subB _ (i1.sub f hf))
    have a2 := hs.dirs _ hq
    rw [e, a2] at a1; cases a1
  have sameB : ∀ p ∈ bs.flatMap (·.orders), applyFills h (fb ++ fsl) p = applyFills h fb p := by
    intro p hpm
    rw [applyFills_append]
    apply applyFills_other
    intro f hf e
    have a1 := hs.dirs _ (subS _ (i2.sub f hf))
    have a2 := hb.dirs _ hpm
    rw [e, a2] at a1; cases a1
  have hkS : HeapOk (applyFills h fb) (ss.flatMap (·.orders)) := i1.heapOk hp hs.ok
  have hkB : HeapOk (applyFills h (fb ++ fsl)) (bs.flatMap (·.orders)) := by
    rw [applyFills_append]; exact i2.heapOk hp (i1.heapOk hp hb.ok)
  have hkS' : HeapOk (applyFills h (fb ++ fsl)) (ss.flatMap (·.orders)) := by
    rw [applyFills_append]; exact i2.heapOk hp hkS
  have totS : ∀ ts : List Tick, (∀ t ∈ ts, t ∈ ss) → ticksTotal (applyFills h fb) ts price = ticksTotal h ts price := by
    intro ts hts
    rw [ticksTotal_eq, ticksTotal_eq]
    apply totalMatchable_congr
    intro q hq
    obtain ⟨t, ht, hqt⟩ := List.mem_flatMap.1 hq
    exact sameS q (List.mem_flatMap.2 ⟨t, hts t ht, hqt⟩)
  -- exhaustion of a leading part of the buys
  have exB : ∀ pre post, buildSide false bs price = pre ++ post → ticksTotal h pre price ≤ amtSum fb →
      ∀ p ∈ pre.flatMap (·.orders), p ∈ bs.flatMap (·.orders) → price ≤ (h p).price →
        matchableAmount (applyFills h (fb ++ fsl) p) (applyFills h (fb ++ fsl) p).price = 0 := by
    intro pre post e hle p hpm hpb hlim
    have h0 := priority_full hp (h := h) (fs := fb) (pre := pre) (post := post)
      (fun q hq => hb.ok q (subB q (by rw [e]; exact hq))) (by rw [← e]; exact i1) (by rw [← e]; exact p1) hle p hpm
    rw [← sameB p hpb] at h0
    exact exhausted_buy (hkB p hpb) (by rw [applyFills_dir]; exact hb.dirs p hpb) h1 (by rw [applyFills_price]; exact hlim) h0
  have exS : ∀ pre post, buildSide true ss price = pre ++ post → (∀ t ∈ pre, t ∈ ss) → ticksTotal h pre price ≤ amtSum fsl →
      ∀ q ∈ pre.flatMap (·.orders), q ∈ ss.flatMap (·.orders) → (h q).price ≤ price →
        matchableAmount (applyFills h (fb ++ fsl) q) (applyFills h (fb ++ fsl) q).price = 0 := by
    intro pre post e hsub hle q hqm hqs hlim
    have h0 := priority_full hp (h := applyFills h fb) (fs := fsl) (pre := pre) (post := post)
      (fun q hq => hkS q (subS q (by rw [e]; exact hq))) (by rw [← e]; exact i2) (by rw [← e]; exact p2)
      (by rw [totS pre hsub]; exact hle) q hqm
    rw [← applyFills_append] at h0
    exact exhausted_sell (hkS' q hqs) (by rw [applyFills_dir]; exact hs.dirs q hqs) (by rw [applyFills_price]; exact hlim) h0
  have inS : ∀ t ∈ buildSide true ss price, t ∈ ss := fun t ht => by
    obtain ⟨post, e⟩ := buildSide_prefix true ss price
    rw [e]; exact List.mem_append_left _ ht
  have inB : ∀ t ∈ buildSide false bs price, t ∈ bs := fun t ht => by
    obtain ⟨post, e⟩ := buildSide_prefix false bs price
    rw [e]; exact List.mem_append_left _ ht
  have hlb : ∀ t ∈ buildSide false bs price, price ≤ t.price := fun t ht => by simpa using buildSide_limit ht
  have hls : ∀ t ∈ buildSide true ss price, t.price ≤ price := fun t ht => by simpa using buildSide_limit ht
  constructor
  · intro hle t ht q hq
    have e := hs.prices t (inS t ht) q hq
    have := exS _ [] (List.append_nil _).symm inS (by omega) q (List.mem_flatMap.2 ⟨t, ht, hq⟩)
      (List.mem_flatMap.2 ⟨t, inS t ht, hq⟩) (by rw [e]; exact hls t ht)
    rw [applyFills_price, e] at this
    exact this
  · intro hle t ht q hq
    have e := hb.prices t (inB t ht) q hq
    have := exB _ [] (List.append_nil _).symm (by omega) q (List.mem_flatMap.2 ⟨t, ht, hq⟩)
      (List.mem_flatMap.2 ⟨t, inB t ht, hq⟩) (by rw [e]; exact hlb t ht)
    rw [applyFills_price, e] at this
    exact this

/-- `MatchAtSinglePrice` leaves nothing matchable on the smaller side. -/
theorem single_exhausts {h : Heap} {ob : OrderBook} {price : Int} (h1 : Dec.one ≤ price)
    (hb : SideOk h .buy ob.buys) (hs : SideOk h .sell ob.sells)
    {st : MState} {m : Bool} (e : matchAtSinglePrice h ob price = some (st, m)) :
    (ticksTotal h (buildSide true ob.sells price) price ≤ ticksTotal h (buildSide false ob.buys price) price →
      ∀ t ∈ buildSide true ob.sells price, ∀ q ∈ t.orders, matchableAmount (st.heap q) t.price = 0) ∧
    (ticksTotal h (buildSide false ob.buys price) price ≤ ticksTotal h (buildSide true ob.sells price) price →
      ∀ t ∈ buildSide false ob.buys price, ∀ q ∈ t.orders, matchableAmount (st.heap q) t.price = 0) := by
  have hp : 0 < price := lt_of_lt_of_le one_pos h1
  have hmin := findSingle_min h1 hb hs
  rcases matchAtSinglePrice_spec hp hb hs with ⟨f1, f2⟩ | ⟨mm, fb, fsl, f1, _, f2, i1, i2, a1, _, a2, _, p1, p2⟩
  · rw [f2] at e
    rw [f1] at hmin
    simp only [Option.some.injEq, Prod.mk.injEq] at e
    rw [← e.1]
    exact exhaust_core h1 hb hs (fb := []) (fsl := []) (Indep.nil _ _ _) (Indep.nil _ _ _)
      (PricePriority.nil _ _ _) (PricePriority.nil _ _ _) hmin hmin
  · rw [f2] at e
    rw [f1] at hmin
    simp only [Option.some.injEq, Prod.mk.injEq, Option.getD_some] at e hmin
    rw [← e.1]
    exact exhaust_core h1 hb hs i1 i2 p1 p2 (by omega) (by rw [a2 h1]; exact hmin)

end Verif.Amm

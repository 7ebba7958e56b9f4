import Verif.Proofs.Ranges
import Verif.Proofs.Accept
import Verif.Proofs.Ladder
import Verif.Proofs.PairBatch
/-! # Every price the module stores is a tick (C75) -/
namespace Verif.Amm
open Verif Verif.Dec Verif.Spec

theorem down_nonpos {x : Int} {prec : Nat} (h : x ≤ 0) : priceToDownTick x prec ≤ 0 := by
  unfold priceToDownTick
  simp only
  split
  · have h1 : x.tdiv (10 ^ ((char x : Int) - prec).toNat) ≤ 0 := by
      have := Int.tdiv_nonneg (a := -x) (b := 10 ^ ((char x : Int) - prec).toNat) (by omega) (by positivity)
      rw [Int.neg_tdiv] at this
      omega
    exact mul_nonpos_of_nonpos_of_nonneg h1 (by positivity)
  · exact h

theorem buyLoop_ticks (prec : Nat) {pp lowest : Int} (hlow : 0 < lowest) : ∀ (fuel : Nat) (p : Pool) (tick : Int) (acc l : List (Int × Int)),
    (lowest ≤ tick → IsTick prec tick) → (∀ o ∈ acc, IsTick prec o.1) → buyLoop prec pp lowest fuel p tick acc = .done l →
    ∀ o ∈ l, IsTick prec o.1 := by
  intro fuel
  induction fuel with
  | zero => intro p tick acc l _ _ h; simp [buyLoop] at h
  | succ n ih =>
    intro p tick acc l htk ha h
    rw [buyLoop] at h
    split at h
    · have h : acc = l := by simpa using h
      rw [← h]; exact ha
    · rename_i ht
      have htk := htk (by omega)
      split at h
      · simp at h
      · rename_i amt _
        split at h
        · refine ih _ _ _ _ (fun hl => ?_) ha h
          exact (downTick_facts (by omega : 0 < tick) prec).2.2 (by omega)
        · have ha' : ∀ o ∈ acc ++ [(tick, amt)], IsTick prec o.1 := by
            intro o ho
            rcases List.mem_append.1 ho with ho | ho
            · exact ha o ho
            · simp at ho; subst ho; exact htk
          simp only at h
          split at h
          · have h : acc ++ [(tick, amt)] = l := by simpa using h
            rw [← h]; exact ha'
          · split at h
            · simp at h
            · rename_i t ht2
              refine ih _ _ _ _ (fun hl => ?_) ha' h
              have e := down?_some ht2
              by_cases hx : 0 < Dec.mul tick (Dec.one - poolOrderPriceGapRatio pp tick)
              · rw [← e]; exact isTick_down hx prec
              · exfalso
                have hx0 := down_nonpos (prec := prec) (not_lt.1 hx)
                omega

theorem sellLoop_ticks (prec : Nat) {pp highest : Int} (hpp : 0 ≤ pp) : ∀ (fuel : Nat) (p : Pool) (tick : Int) (acc l : List (Int × Int)),
    IsTick prec tick → (∀ o ∈ acc, IsTick prec o.1) → sellLoop prec pp highest fuel p tick acc = .done l → ∀ o ∈ l, IsTick prec o.1 := by
  intro fuel
  induction fuel with
  | zero => intro p tick acc l _ _ h; simp [sellLoop] at h
  | succ n ih =>
    intro p tick acc l htk ha h
    have htp := isTick_pos htk
    rw [sellLoop] at h
    split at h
    · have h : acc = l := by simpa using h
      rw [← h]; exact ha
    · split at h
      · simp at h
      · rename_i amt _
        split at h
        · exact ih _ _ _ _ (isNext_up htp prec).1 ha h
        · have ha' : ∀ o ∈ acc ++ [(tick, amt)], IsTick prec o.1 := by
            intro o ho
            rcases List.mem_append.1 ho with ho | ho
            · exact ha o ho
            · simp at ho; subst ho; exact htk
          simp only at h
          split at h
          · have h : acc ++ [(tick, amt)] = l := by simpa using h
            rw [← h]; exact ha'
          · split at h
            · simp at h
            · rename_i t ht2
              refine ih _ _ _ _ ?_ ha' h
              obtain ⟨t', e', _, t1⟩ := @nextSell tick _ prec htp (@gapSell pp tick hpp)
              rw [e'] at ht2
              cases ht2
              exact t1

theorem poolOrders_ticks {sqrt : Int → Int} {id : Nat} {p : Pool} {lo hi : Int} {prec : Nat} (hlo : IsTick prec lo) (hhi : IsTick prec hi)
    (hpp : ∀ pp, p.price = some pp → 0 ≤ pp) : ∀ o ∈ poolOrders sqrt id p lo hi prec, IsTick prec o.price := by
  intro o ho
  have hlo0 := isTick_pos hlo
  unfold poolOrders poolBuyOrders poolSellOrders at ho
  simp only [List.mem_append, List.mem_map] at ho
  have hb : ∀ l, poolBuyOrdersRaw sqrt p lo hi prec = .done l → ∀ o ∈ l, IsTick prec o.1 := by
    intro l h
    unfold poolBuyOrdersRaw at h
    split at h
    · simp at h
    · rename_i pp _
      split at h
      · have h : l = [] := by simpa using h.symm
        subst h; simp
      · split at h
        · simp at h
        · rename_i p' acc hf
          have hacc : ∀ o ∈ acc, IsTick prec o.1 := by
            unfold buyFirst at hf
            split at hf
            · simp only [Option.bind_eq_bind, Option.bind_eq_some_iff] at hf
              obtain ⟨amt, _, hf⟩ := hf
              split at hf
              · simp only [Option.bind_eq_some_iff] at hf
                obtain ⟨q, _, hf⟩ := hf
                have hf : (q, [(hi, amt)]) = (p', acc) := by simpa using hf
                have := (Prod.mk.injEq .. ▸ hf : _ ∧ _).2
                subst this
                intro o ho
                simp at ho; subst ho
                exact hhi
              · have hf : (p, ([] : List (Int × Int))) = (p', acc) := by simpa using hf
                have := (Prod.mk.injEq .. ▸ hf : _ ∧ _).2
                subst this
                simp
            · have hf : (p, ([] : List (Int × Int))) = (p', acc) := by simpa using hf
              have := (Prod.mk.injEq .. ▸ hf : _ ∧ _).2
              subst this
              simp
          split at h
          · simp at h
          · split at h
            · simp at h
            · rename_i t ht
              refine buyLoop_ticks prec hlo0 _ _ _ _ _ (fun hl => ?_) hacc h
              have e := down?_some ht
              rename_i pp' _ _
              by_cases hx : 0 < min hi pp'
              · rw [← e]; exact isTick_down hx prec
              · have := down_nonpos (prec := prec) (not_lt.1 hx)
                omega
  have hsl : ∀ l, poolSellOrdersRaw sqrt p lo hi prec = .done l → ∀ o ∈ l, IsTick prec o.1 := by
    intro l h
    unfold poolSellOrdersRaw at h
    split at h
    · simp at h
    · rename_i pp hp
      split at h
      · have h : l = [] := by simpa using h.symm
        subst h; simp
      · split at h
        · simp at h
        · rename_i p' acc hf
          have hacc : ∀ o ∈ acc, IsTick prec o.1 := by
            unfold sellFirst at hf
            split at hf
            · simp only [Option.bind_eq_bind, Option.bind_eq_some_iff] at hf
              obtain ⟨amt, _, hf⟩ := hf
              split at hf
              · simp only [Option.bind_eq_some_iff] at hf
                obtain ⟨q, _, hf⟩ := hf
                have hf : (q, [(lo, amt)]) = (p', acc) := by simpa using hf
                have := (Prod.mk.injEq .. ▸ hf : _ ∧ _).2
                subst this
                intro o ho
                simp at ho; subst ho
                exact hlo
              · have hf : (p, ([] : List (Int × Int))) = (p', acc) := by simpa using hf
                have := (Prod.mk.injEq .. ▸ hf : _ ∧ _).2
                subst this
                simp
            · have hf : (p, ([] : List (Int × Int))) = (p', acc) := by simpa using hf
              have := (Prod.mk.injEq .. ▸ hf : _ ∧ _).2
              subst this
              simp
          split at h
          · simp at h
          · rename_i pp' _
            have hmp : 0 < max lo pp' := lt_of_lt_of_le hlo0 (le_max_left _ _)
            have ht : priceToUpTick? (max lo pp') prec = some (priceToUpTick (max lo pp') prec) := by
              unfold priceToUpTick?; rw [if_neg (by omega)]
            rw [ht] at h
            simp only at h
            exact sellLoop_ticks prec (hpp pp hp) _ _ _ _ _ (isCeil_up hmp prec).1 hacc h
  rcases ho with ⟨a, ha, rfl⟩ | ⟨a, ha, rfl⟩
  · cases e : poolBuyOrdersRaw sqrt p lo hi prec with
    | done l => rw [e] at ha; exact hb l e a ha
    | panic => rw [e] at ha; cases ha
    | outOfFuel => rw [e] at ha; cases ha
  · cases e : poolSellOrdersRaw sqrt p lo hi prec with
    | done l => rw [e] at ha; exact hsl l e a ha
    | panic => rw [e] at ha; cases ha
    | outOfFuel => rw [e] at ha; cases ha

theorem findMatchPrice_tick {ov : OrderView} {prec : Nat} (hp : prec ≤ 18) {mp : Int} (h : findMatchPrice ov prec = some mp) :
    IsTick prec mp := by
  unfold findMatchPrice at h
  split at h
  · cases h
  · split at h
    · cases h
    · split at h
      · cases h
      · simp only at h
        split at h
        · cases h
        · rename_i i hi
          split at h
          · cases h
          · rename_i j hj
            have h := Option.some.inj h
            have b1 := Dex.findFirst_between hi
            have b2 := Dex.findFirst_between hj
            have hl := index_lowest prec
            have ht := topIndex_pos hp
            unfold topIndex at ht
            rw [hl] at b1 b2
            have i0 : 0 ≤ i := by omega
            have j0 : 0 ≤ j := by omega
            have k1 := (tickFromIndex_facts i0 prec).1
            have k2 := (tickFromIndex_facts j0 prec).1
            have hlp := lowestTick_pos prec
            have he : (tickFromIndex i prec + tickFromIndex j prec).tdiv 2 = (tickFromIndex i prec + tickFromIndex j prec) / 2 :=
              Int.tdiv_eq_ediv_of_nonneg (by omega)
            rw [he] at h
            obtain ⟨r1, r2⟩ := Verif.Props.C05_round_price ((tickFromIndex i prec + tickFromIndex j prec) / 2) prec (by omega)
            by_cases hT : IsTick prec ((tickFromIndex i prec + tickFromIndex j prec) / 2)
            · rw [r1 hT] at h; rw [← h]; exact hT
            · rw [← h]
              rcases (r2 hT).1 with h' | h'
              · exact h'.1
              · exact h'.1

/-- The price returned by the loop of `Match` is the one given or the price of a tick. -/
theorem loop_price (dir : PriceDir) (Q : Int → Prop) : ∀ (fuel : Nat) (st : MState) (bs ss : List Tick) (mp : Int) (matched : Bool)
    (st' : MState) (mp' : Int) (m' : Bool), Q mp → (∀ t ∈ bs, Q t.price) → (∀ t ∈ ss, Q t.price) →
    matchLoop dir fuel st bs ss mp matched = some (st', mp', m') → Q mp' := by
  intro fuel
  induction fuel with
  | zero => intro st bs ss mp matched st' mp' m' q _ _ e; simp [matchLoop] at e; rw [← e.2.1]; exact q
  | succ n ih =>
    intro st bs ss mp matched st' mp' m' q hb hs e
    cases bs with
    | nil => simp [matchLoop] at e; rw [← e.2.1]; exact q
    | cons bt bs =>
      cases ss with
      | nil => simp [matchLoop] at e; rw [← e.2.1]; exact q
      | cons sk ss =>
        unfold matchLoop at e
        have hb' : ∀ t ∈ bs, Q t.price := fun t h => hb t (by simp [h])
        have hs' : ∀ t ∈ ss, Q t.price := fun t h => hs t (by simp [h])
        by_cases hcross : bt.price < sk.price
        · rw [if_pos hcross] at e
          simp only [Option.some.injEq, Prod.mk.injEq] at e
          rw [← e.2.1]; exact q
        · rw [if_neg hcross] at e
          simp only at e
          have hp : Q (if dir = .increasing then sk.price else bt.price) := by
            split
            · exact hs sk (by simp)
            · exact hb bt (by simp)
          revert e
          generalize (if dir = .increasing then sk.price else bt.price) = p at hp ⊢
          intro e
          split at e
          · exact ih _ _ _ _ _ _ _ _ q hb' hs e
          · split at e
            · exact ih _ _ _ _ _ _ _ _ q hb hs' e
            · split at e
              · cases e
              · split at e
                · cases e
                · refine ih _ _ _ _ _ _ _ _ ?_ ?_ ?_ e
                  · exact hp
                  · split
                    · exact hb'
                    · exact hb
                  · split
                    · exact hs'
                    · exact hs

theorem obMatch_tick {h : Heap} {ps : List Nat} {last : Int} {Q : Int → Prop} (hq : Q last) (hl : ∀ p ∈ ps, Q (h p).price)
    (hlv : ∀ p ∈ ps, Live (h p)) (hnd : ps.Nodup) {r : MatchResult}
    (hr : obMatch h (newOrderBook h ps) last = some r) (hm : r.matched = true) : Q r.matchPrice := by
  obtain ⟨sb, ss⟩ := book_sides hnd hlv
  unfold obMatch at hr
  split at hr
  · cases hr; cases hm
  · simp only at hr
    split at hr
    · cases hr
    · split at hr
      · cases hr; exact hq
      · split at hr
        · cases hr
        · rename_i e
          cases hr
          refine loop_price _ Q _ _ _ _ _ _ _ _ _ hq ?_ ?_ e
          · intro t ht
            obtain ⟨p, hp⟩ := List.exists_mem_of_ne_nil _ ((bookOk_new h ps).buys.nonempty t ht)
            have hm := eligible_mem ((bookOk_new h ps).buys.perm.mem_iff.1 (List.mem_flatMap.2 ⟨t, ht, hp⟩))
            rw [← sb.prices t ht p hp]; exact hl p hm.1
          · intro t ht
            obtain ⟨p, hp⟩ := List.exists_mem_of_ne_nil _ ((bookOk_new h ps).sells.nonempty t ht)
            have hm := eligible_mem ((bookOk_new h ps).sells.perm.mem_iff.1 (List.mem_flatMap.2 ⟨t, ht, hp⟩))
            rw [← ss.prices t ht p hp]; exact hl p hm.1

end Verif.Amm

namespace Verif.Dex
open Verif Verif.Amm Verif.Spec

variable {s s' : State}

theorem priceLimits_tick {p : Params} (h : SaneParams p) {last lo hi : Int} (hl : 0 < last) (e : p.priceLimits last = some (lo, hi)) :
    IsTick p.tickPrec lo ∧ IsTick p.tickPrec hi := by
  unfold Params.priceLimits Dex.priceLimits at e
  split at e
  · rename_i a b h1 h2
    simp only [Option.some.injEq, Prod.mk.injEq] at e
    obtain ⟨rfl, rfl⟩ := e
    unfold priceToUpTick? at h1
    unfold priceToDownTick? at h2
    split at h1
    · cases h1
    · split at h2
      · cases h2
      · have h1 := Option.some.inj h1
        have h2 := Option.some.inj h2
        have m1 : 0 ≤ Dec.mul last (Dec.one - p.maxPriceLimitRatio) := mul_nonneg_dec (le_of_lt hl) (by have := h.ratio.2; omega)
        have m2 : 0 ≤ Dec.mul last (Dec.one + p.maxPriceLimitRatio) := mul_nonneg_dec (le_of_lt hl) (by have := h.ratio.1; have h0 : (0:Int) < Dec.one := (by decide); omega)
        rw [← h1, ← h2]
        exact ⟨(isCeil_up (by omega) _).1, isTick_down (by omega) _⟩
  · cases e

/-- A matching of tick orders at a tick last price ends at a tick. -/
theorem keeperMatch_tick {env : Env} {pr : Params} (hpr : SaneParams pr) {os : List Order} {pools : List (Nat × Pool)} {last : Option Int}
    {out : MatchOut} (hl : ∀ o ∈ os, Live o) (ht : ∀ o ∈ os, IsTick pr.tickPrec o.price)
    (hlast : ∀ p, last = some p → IsTick pr.tickPrec p)
    (hpp : ∀ e ∈ pools, ∀ pp, e.2.price = some pp → 0 ≤ pp)
    (h : keeperMatch env pr os pools last = some (some out)) : IsTick pr.tickPrec out.price := by
  unfold keeperMatch at h
  split at h
  · split at h
    · cases h
    · split at h
      · cases h
      · rename_i mp hmp
        have hmp0 := findMatchPrice_tick hpr.prec hmp
        split at h
        · cases h
        · simp only at h
          split at h
          · cases h
          · cases h
          · cases h
            exact hmp0
  · rename_i lp
    have hlt := hlast lp rfl
    split at h
    · cases h
    · rename_i lo hi hlim
      obtain ⟨t1, t2⟩ := priceLimits_tick hpr (isTick_pos hlt) hlim
      simp only at h
      split at h
      · cases h
      · rename_i r hr
        split at h
        · rename_i hm
          cases h
          have hpos : ∀ o ∈ pools.flatMap (fun p => poolOrders env.sqrt p.1 p.2 lo hi pr.tickPrec), Live o ∧ IsTick pr.tickPrec o.price := by
            intro o ho
            obtain ⟨e, he, ho⟩ := List.mem_flatMap.1 ho
            exact ⟨(poolOrders_pos (isTick_pos t1) (isTick_pos t2) (hpp e he) o ho).live, poolOrders_ticks t1 t2 (hpp e he) o ho⟩
          refine obMatch_tick (Q := IsTick pr.tickPrec) hlt ?_ (all_live hl (fun o ho => (hpos o ho).1)) (List.nodup_range) hr hm
          intro p hp'
          rw [List.mem_range] at hp'
          by_cases h : p < os.length
          · rw [heapOf_left h]; exact ht _ (List.getElem_mem _)
          · exact (hpos _ (heapOf_right (by omega) hp')).2
        · cases h

/-- The orders and last prices are ticks of the given precision. -/
structure TickPrices (prec : Nat) (t : State) : Prop where
  orders : ∀ o ∈ t.orders, IsTick prec o.price
  last : ∀ p ∈ t.pairs, ∀ lp, p.lastPrice = some lp → IsTick prec lp

theorem SameOrder.price_eq {a b : OrderRec} (h : SameOrder a b) : b.price = a.price := by
  unfold SameOrder at h; tauto

theorem book_mem {pid : Nat} {o : OrderRec} (h : o ∈ bookOrders s pid) : o ∈ s.orders ∧ o.pairId = pid := by
  unfold bookOrders State.ordersOf at h
  have h := (List.mem_filter.1 (List.mem_filter.1 h).1)
  exact ⟨h.1, by simpa using h.2⟩

theorem matching_tick {env : Env} {x : Pair} {t t' : State} (hB : BeforeMatch env s t x) (e : executeMatching env x t = some t')
    (h : TickPrices t.params.tickPrec t) : TickPrices t'.params.tickPrec t' := by
  have hm := executeMatching_spec hB.wf hB.now e
  obtain ⟨pools, out, hX⟩ := executeMatching_exact hB.wf hB.now e
  rw [hm.params]
  refine ⟨?_, ?_⟩
  · intro o ho
    by_cases hp : o.pairId = x.id
    · obtain ⟨o0, h1, h2, _⟩ := hm.back o ho hp
      rw [h2.price_eq]; exact h.orders o0 h1
    · exact h.orders o ((hm.others o hp).1 ho)
  · intro p hp lp hlp
    rw [hX.pairs] at hp
    rcases (hB.wf.mem_setPair (p' := { x with lastPrice := resultPrice x.lastPrice out, batchId := x.batchId + 1 }) hB.now (by rfl)).1 hp with rfl | hp
    · cases out with
      | none => exact h.last x hB.now lp hlp
      | some out =>
        have : out.price = lp := by simpa [resultPrice] using hlp
        rw [← this]
        refine keeperMatch_tick hB.params ?_ ?_ (fun p hp => h.last x hB.now p hp) ?_ hX.result
        · intro y hy
          obtain ⟨o, ho, rfl⟩ := List.mem_map.1 hy
          obtain ⟨h1, h2⟩ := book_mem ho
          exact newUser_live (hB.orders o h1 h2)
        · intro y hy
          obtain ⟨o, ho, rfl⟩ := List.mem_map.1 hy
          exact h.orders o (book_mem ho).1
        · intro e he pp hpp
          obtain ⟨pool, h1, h2, _, _, h5, _⟩ := hX.src e he
          exact hB.pools pool h1 h2 e.2 pp h5 hpp
    · exact h.last p hp.1 lp hlp

theorem endBlock_tick (hw : WF s) {env : Env} (hs : SaneState env s) (ho : ∀ o ∈ s.orders, Explained o)
    (hT : TickPrices s.params.tickPrec s) (h : endBlock env s = some s') : TickPrices s'.params.tickPrec s' := by
  unfold endBlock at h
  split at h
  · cases h
  · split at h
    · unfold executeRequests at h
      split at h
      · cases h
      · rename_i s1 h1
        have m1 := matching_all hw h1
        have T : TickPrices s1.params.tickPrec s1 := (batch_trading_inv (fun t => TickPrices t.params.tickPrec t) hw hs ho
          (fun p hp lp e => isTick_pos (hT.last p hp lp e)) h1 (fun x t t' hB e hr => matching_tick hB e hr) hT).2
        split at h
        · cases h
        · rename_i s2 h2
          have m2 := expire_all m1.wf h2
          split at h
          · cases h
          · rename_i s3 h3
            have m3 := deposit_all m2.wf h3
            have m4 := withdraw_all m3.wf h
            rw [m4.frame.params, m3.frame.params, m2.frame.params]
            refine ⟨?_, ?_⟩
            · rw [m4.orders, m3.orders]
              intro o hot
              obtain ⟨o1, b1, b2⟩ := m2.back o hot
              rcases b2 with rfl | ⟨_, rfl, _⟩
              · exact T.orders o b1
              · exact T.orders o1 b1
            · rw [m4.frame.pairs, m3.frame.pairs, m2.frame.pairs]
              exact T.last
    · cases h
      exact hT

/-- The price of an accepted order is a tick. -/
theorem orderPrice_tick {p : Params} (hp : SaneParams p) {pair : Pair} {typ : OType} {dir : Dir} {price r : Int}
    (hl : ∀ lp, pair.lastPrice = some lp → 0 < lp) (hpr : typ ≠ .market → 0 < price) (h : orderPrice p pair typ dir price = some r) :
    IsTick p.tickPrec r := by
  have key : ∀ x, 0 ≤ x → (∀ y, priceToDownTick? x p.tickPrec = some y → IsTick p.tickPrec y) ∧
      (∀ y, priceToUpTick? x p.tickPrec = some y → IsTick p.tickPrec y) := by
    intro x hx
    refine ⟨fun y e => ?_, fun y e => ?_⟩
    · by_cases h0 : x = 0
      · simp [priceToDownTick?, h0] at e
      · rw [← down?_some e]; exact isTick_down (by omega) _
    · by_cases h0 : x = 0
      · simp [priceToUpTick?, h0] at e
      · rw [← up?_some e]; exact (isCeil_up (by omega) _).1
  have m : ∀ lp, 0 < lp → 0 ≤ Dec.mul lp (Dec.one - p.maxPriceLimitRatio) ∧ 0 ≤ Dec.mul lp (Dec.one + p.maxPriceLimitRatio) := by
    intro lp hlp
    have := hp.ratio
    have h0 : (0:Int) < Dec.one := by decide
    exact ⟨mul_nonneg_dec (le_of_lt hlp) (by omega), mul_nonneg_dec (le_of_lt hlp) (by omega)⟩
  unfold orderPrice at h
  split at h
  · obtain ⟨lp, e1, e2⟩ := Option.bind_eq_some_iff.1 h
    exact (key _ (m lp (hl lp e1)).2).1 _ e2
  · rename_i hne
    exact (key _ (le_of_lt (hpr (fun e => hne e)))).1 _ h
  · obtain ⟨lp, e1, e2⟩ := Option.bind_eq_some_iff.1 h
    exact (key _ (m lp (hl lp e1)).1).2 _ e2
  · rename_i hne
    exact (key _ (le_of_lt (hpr (fun e => hne e)))).2 _ h

theorem placed_tick (hw : WF s) (hp : SaneParams s.params) {typ : OType} {orderer pairId : Nat} {dir : Dir} {offer : Coin} {demand : Denom}
    {price amount lifespan : Int} (hpr : typ ≠ .market → 0 < price)
    (h : placeOrder typ orderer pairId dir offer demand price amount lifespan s = some s') (hT : TickPrices s.params.tickPrec s) :
    ∀ o ∈ s'.orders, IsTick s.params.tickPrec o.price := by
  obtain ⟨p, o, e, _, _, _, _, _, _, _, _, _, _, e11, _, _⟩ := placeOrder_spec hw h
  intro x hx
  rcases (e.orders x).1 hx with hx | rfl
  · exact hT.orders x hx
  · exact orderPrice_tick hp (fun lp hlp => isTick_pos (hT.last p e.pair.1 lp hlp)) hpr e11

theorem tx_tick {valid : Bool} {handler : State → Option State} (hT : TickPrices s.params.tickPrec s) (h : some (tx valid handler s) = some s')
    (he : ∀ t, valid = true → handler s = some t → ∀ o ∈ t.orders, IsTick s.params.tickPrec o.price) :
    ∀ o ∈ s'.orders, IsTick s.params.tickPrec o.price := by
  cases h
  rcases tx_cases (valid := valid) (handler := handler) (s := s) with e | ⟨hv, e⟩
  · rw [e]; exact hT.orders
  · exact he _ hv e

theorem step_tick {env : Env} (hc : SaneChain env s) (hs : SaneState env s) {op : Op} (hT : TickPrices s.params.tickPrec s)
    (h : step env op s = some s') (hprec : s'.params.tickPrec = s.params.tickPrec) : TickPrices s'.params.tickPrec s' := by
  have I := sane_of_chain hc
  have hw := I.reach.wf
  have hr : Reachable env s' := I.reach.run (ops := [op]) (by simp [Dex.run, h])
  by_cases h1 : ∃ a b, op = .beginBlock a b
  · obtain ⟨a, b, rfl⟩ := h1
    cases h
    exact ⟨fun o ho => hT.orders o (List.mem_filter.1 ho).1, hT.last⟩
  by_cases h2 : op = .endBlock
  · subst h2
    exact endBlock_tick hw hs I.orders hT h
  have hE := step_effect hw (by push Not at h1; exact h1) h2 h
  rw [hprec]
  refine ⟨?_, ?_⟩
  swap
  · intro p hp lp hlp
    rcases (effect_pairs hw hr.wf hE).2 p hp with ⟨q, hq, e2⟩ | e2
    · exact hT.last q hq lp (by rw [e2] at hlp; exact hlp)
    · rw [e2] at hlp; cases hlp
  have hsame : s'.orders = s.orders → ∀ o ∈ s'.orders, IsTick s.params.tickPrec o.price := fun e => by rw [e]; exact hT.orders
  cases hE with
  | same _ e => exact hsame (by rw [e])
  | pair m b hb e => exact hsame (by rw [e]; rfl)
  | pool m pr cs mt h' => exact hsame h'.rest.2.2.2.2.2.1
  | ranged m pr cs mt h' => exact hsame h'.rest.2.2.2.2.2.1
  | deposit m p r h' => exact hsame h'.rest.2.2.2.2.2.1
  | withdraw m p r h' => exact hsame h'.rest.2.2.2.2.2.1
  | transfer src dst cs b hb e => exact hsame (by rw [e])
  | params p hv e => exact hsame (by rw [e])
  | cancel _ hop hf hs ho' hl =>
    intro x hx
    rcases ho' x hx with hx | ⟨o, h1, _, rfl⟩
    · exact hT.orders x hx
    · exact hT.orders o h1
  | order _ hop p o ho hpos =>
    rcases hop with ⟨m, rfl⟩ | ⟨m, rfl⟩ | ⟨m, rfl⟩
    · refine tx_tick hT h (fun t hv e => placed_tick hw hs.params (fun _ => ?_) e hT)
      by_contra hc
      simp [MsgLimitOrder.validateBasic, hc] at hv
    · exact tx_tick hT h (fun t hv e => placed_tick hw hs.params (fun hne => absurd rfl hne) e hT)
    · refine tx_tick hT h (fun t hv e => ?_)
      unfold mmOrder at e
      simp only at e
      split at e
      · cases e
      · rw [Option.map_eq_some_iff] at e
        obtain ⟨t, ht, rfl⟩ := e
        refine placed_tick (s' := t) hw hs.params (fun _ => ?_) ht hT
        by_contra hc
        simp [MsgLimitOrder.validateBasicMM, hc] at hv

/-- The parameters are sane, with the given tick precision. -/
def Steady (prec : Nat) (p : Params) : Prop := (SaneParams p ∧ ∀ id, p.dustCollector ≠ .poolReserve id) ∧ p.tickPrec = prec

theorem tick_run {env : Env} (hsq : env.sqrt = approxSqrt) {prec : Nat} :
    ∀ {ops : List Op} {s s' : State}, SaneChain env s → Steady prec s.params → (∀ p, Op.setParams p ∈ ops → Steady prec p) →
    TickPrices s.params.tickPrec s → run env ops s = some s' → TickPrices s'.params.tickPrec s'
  | [], _, _, _, _, _, hT, h => by cases h; exact hT
  | op :: ops, s, s', hc, hp, hops, hT, h => by
    simp only [run, Option.bind_eq_some_iff] at h
    obtain ⟨t, h1, h2⟩ := h
    have hR := (sane_of_chain hc).reach
    have hw := hR.wf
    have hrun : run env [op] s = some t := by simp [Dex.run, h1]
    have hs : SaneState env s := ⟨hp.1.1, hp.1.2, prices_nonneg hsq hR⟩
    have hpt : Steady prec t.params := params_run (P := Steady prec) (ops := [op]) hw hp (fun p h => hops p (by simp at h; simp [h])) hrun
    exact tick_run hsq (hc.step op (fun _ => hs) h1) hpt (fun p h => hops p (by simp [h]))
      (step_tick hc hs hT h1 (hpt.2.trans hp.2.symm)) h2

theorem reachable_tick {env : Env} (hsq : env.sqrt = approxSqrt) {prec : Nat} (h : ReachableWith env (Steady prec) s) : TickPrices prec s := by
  obtain ⟨s0, ops, hg, hp, hops, h⟩ := h
  have h1 := params_run (P := Steady prec) (genesis_wf hg) hp hops h
  rw [← h1.2]
  refine tick_run hsq (.genesis hg) hp hops ⟨?_, ?_⟩ h
  · rw [hg.orders]; simp
  · rw [hg.pairs]; simp

/-- The ranges of stored pools are ticks. -/
def RangeTicks (prec : Nat) (s : State) : Prop := ∀ p ∈ s.pools, ∀ lo hi, p.range = some (lo, hi) → IsTick prec lo ∧ IsTick prec hi

theorem rangeTicks_old {prec : Nat} (hw : WF s) (hw' : WF s') (he : Evolves s s') (hid : s'.lastPoolId = s.lastPoolId) (hr : RangeTicks prec s) :
    RangeTicks prec s' := by
  intro p hp lo hi e
  obtain ⟨a, b, _⟩ := hw'.poolIds p hp
  obtain ⟨q, hq, hqi⟩ := hw.poolAll p.id a (hid ▸ b)
  obtain ⟨q', hq', e1, _, _, e4, _⟩ := he.pools q hq
  have : q' = p := hw'.poolsS.inj hq' hp (PoolRec.key_iff.2 (e1.trans hqi))
  subst this
  exact hr q hq lo hi (e4 ▸ e)

theorem rangeTicks_created {prec : Nat} {pid creator : Nat} {range : Option (Int × Int)} {coins : Coins} {minted : Int} (hr : RangeTicks prec s)
    (hv : ∀ lo hi, range = some (lo, hi) → IsTick prec lo ∧ IsTick prec hi)
    (h : PoolCreated pid creator range coins minted s s') : RangeTicks prec s' := by
  intro p hp lo hi e
  rcases (h.pools p).1 hp with h1 | rfl
  · exact hr p h1 lo hi e
  · exact hv lo hi e

theorem ranged_ticks {env : Env} {m : MsgCreateRangedPool} (h : createRangedPoolMsg env m s = some s') :
    IsTick s.params.tickPrec m.minPrice ∧ IsTick s.params.tickPrec m.maxPrice := by
  obtain ⟨v1, v2, v3, v4⟩ := validateRanged_true (ranged_valid h)
  unfold createRangedPoolMsg at h
  split at h
  · cases h
  · rename_i pair hv
    unfold validateCreateRangedPool at hv
    split at hv
    · cases hv
    · rename_i h1
      split at hv
      · cases hv
      · rename_i h2
        exact ⟨(downTick_self (by omega)).1 (not_not.1 h1), (downTick_self (by omega)).1 (not_not.1 h2)⟩

theorem rangeTicks_step (hw : WF s) {env : Env} {op : Op} (hr : RangeTicks s.params.tickPrec s) (h : step env op s = some s') :
    RangeTicks s.params.tickPrec s' := by
  have hw' := step_wf hw h
  have he : Evolves s s' := run_evolves (env := env) (ops := [op]) hw (by simp [Dex.run, h])
  by_cases h1 : ∃ a b, op = .beginBlock a b
  · obtain ⟨a, b, rfl⟩ := h1
    cases h
    exact hr
  by_cases h2 : op = .endBlock
  · subst h2
    exact rangeTicks_old hw hw' he (endBlock_lastPool hw h) hr
  have hE := step_effect hw (by push Not at h1; exact h1) h2 h
  cases hE with
  | same op e => subst e; exact hr
  | pair m b hb e => subst e; exact hr
  | pool m pair coins minted hc => exact rangeTicks_created hr (fun _ _ e => by cases e) hc
  | ranged m pair coins minted hc =>
    refine rangeTicks_created hr (fun lo hi e => ?_) hc
    cases e
    have h' := h
    simp only [step, Option.some.injEq] at h'
    rcases tx_cases (valid := m.validateBasic) (handler := createRangedPoolMsg env m) (s := s) with e | ⟨hv, e⟩
    · have : s' = s := by rw [← h', e]
      subst this
      have := hc.id
      omega
    · exact ranged_ticks e
  | deposit m p r hd => exact rangeTicks_old hw hw' he hd.rest.2.2.1 hr
  | withdraw m p r hd => exact rangeTicks_old hw hw' he hd.rest.2.2.1 hr
  | order op hop p o ho _ => exact rangeTicks_old hw hw' he ho.rest.lastPoolId hr
  | cancel op hop hf _ _ _ => exact rangeTicks_old hw hw' he hf.lastPoolId hr
  | transfer src dst cs b hb e => subst e; exact hr
  | params p hv e => subst e; exact hr

theorem rangeTicks_run {env : Env} {prec : Nat} : ∀ {ops : List Op} {s s' : State}, WF s → s.params.tickPrec = prec →
    (∀ p, Op.setParams p ∈ ops → p.tickPrec = prec) → RangeTicks prec s → run env ops s = some s' → RangeTicks prec s'
  | [], _, _, _, _, _, hr, h => by cases h; exact hr
  | op :: ops, s, s', hw, hp, hops, hr, h => by
    simp only [run, Option.bind_eq_some_iff] at h
    obtain ⟨t, h1, h2⟩ := h
    have hpt : t.params.tickPrec = prec := params_run (P := fun p => p.tickPrec = prec) (env := env) (ops := [op]) hw hp
      (fun p h => hops p (by simp at h; simp [h])) (by simp [Dex.run, h1])
    subst hp
    exact rangeTicks_run (step_wf hw h1) hpt (fun p h => hops p (by simp [h])) (rangeTicks_step hw hr h1) h2

theorem reachable_rangeTicks {env : Env} {prec : Nat} (h : ReachableWith env (fun p => p.tickPrec = prec) s) : RangeTicks prec s := by
  obtain ⟨s0, ops, hg, hp, hops, h⟩ := h
  refine rangeTicks_run (genesis_wf hg) hp hops ?_ h
  intro p hp
  rw [hg.pools] at hp
  cases hp

end Verif.Dex

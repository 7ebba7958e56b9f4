import Verif.Proofs.MatchExtra
/-!
# A buy and a sell that are both filled in one matching cross

Buy orders that are worth nothing at the last price but something at a higher price ("dust") are excluded by hypothesis.
-/
namespace Verif.Amm
open Verif Verif.Spec

/-- Nothing can be bought at any price from `L` up. -/
def DeadBuy (L : Int) (o : Order) : Prop := ∀ p, L ≤ p → matchableAmount o p = 0

/-- Nothing can be sold at any price up to `L`. -/
def DeadSell (L : Int) (o : Order) : Prop := ∀ p, 0 < p → p ≤ L → matchableAmount o p = 0

theorem quoteFloor_zero (p : Int) : quoteFloor p 0 = 0 := by simp [quoteFloor, Dec.mulInt, Dec.truncateInt]

theorem quoteFloor_mono_price {p q a : Int} (hp : 0 ≤ p) (ha : 0 ≤ a) (h : p ≤ q) : quoteFloor p a ≤ quoteFloor q a := by
  rw [quoteFloor_eq (by positivity), quoteFloor_eq (mul_nonneg (by omega) ha)]
  exact Int.ediv_le_ediv (show (0:Int) < Dec.one by decide) (Int.mul_le_mul_of_nonneg_right h ha)

/-- What an order could still take at a price, before the check that it is worth something. -/
theorem matchable_zero_of {price m : Int} (h : quoteFloor price m = 0) : (if quoteFloor price m = 0 then 0 else m) = 0 := by
  rw [if_pos h]

/-- Less open and less money: still nothing matchable. -/
theorem dead_mono {o o' : Order} (h : OrderOk o) (h' : OrderOk o') (hd : o'.dir = o.dir) (h1 : o'.openAmt ≤ o.openAmt)
    (h2 : o'.offer - o'.paid ≤ o.offer - o.paid) {p : Int} (hp : 0 < p) (hz : matchableAmount o p = 0) :
    matchableAmount o' p = 0 := by
  have hk : ∀ m m' : Int, 0 ≤ m' → m' ≤ m → (if quoteFloor p m = 0 then 0 else m) = 0 → (if quoteFloor p m' = 0 then 0 else m') = 0 := by
    intro m m' h0 hle hm
    by_cases e : quoteFloor p m = 0
    · have hmono := quoteFloor_mono (le_of_lt hp) h0 hle
      have := (quoteFloor_spec (p := p) (a := m') (by positivity)).1
      rw [if_pos (by omega)]
    · rw [if_neg e] at hm
      have : m' = 0 := by omega
      subst this
      rw [if_pos (quoteFloor_zero p)]
  cases hdir : o.dir with
  | buy =>
    rw [matchable_buy h hdir hp] at hz
    rw [matchable_buy h' (by rw [hd, hdir]) hp]
    have a1 : 0 ≤ (o'.offer - o'.paid) * Dec.one / p :=
      Int.ediv_nonneg (mul_nonneg (by have := h'.paid_le; omega) (by decide)) (le_of_lt hp)
    have a2 : (o'.offer - o'.paid) * Dec.one / p ≤ (o.offer - o.paid) * Dec.one / p :=
      Int.ediv_le_ediv hp (Int.mul_le_mul_of_nonneg_right h2 (by decide))
    have := h'.open_nonneg
    exact hk _ _ (by omega) (by omega) hz
  | sell =>
    rw [matchable_sell hdir] at hz
    rw [matchable_sell (by rw [hd, hdir])]
    exact hk _ _ h'.open_nonneg h1 hz

/-- A buy filled at `L` by all it could take there is dead from `L` up, unless it was worth nothing at `L`. -/
theorem filled_dead_buy {o : Order} (h : OrderOk o) (hd : o.dir = .buy) {L : Int} (hL : 0 < L)
    (hdust : matchableAmount o L = 0 → DeadBuy L o) : DeadBuy L (filledOrder o (matchableAmount o L) L) := by
  have hm0 := matchable_nonneg h hL
  by_cases hz : matchableAmount o L = 0
  · rw [hz, filled_zero]; exact hdust hz
  · intro p hp
    have hok := filled_ok h hL hm0 (le_refl _)
    have hd' : (filledOrder o (matchableAmount o L) L).dir = .buy := by rw [filled_dir, hd]
    have hp0 : 0 < p := by omega
    rw [matchable_buy hok hd' hp0]
    have hmb := matchable_buy h hd hL
    set m := matchableAmount o L with hm
    have hm2 : m = min o.openAmt ((o.offer - o.paid) * Dec.one / L) := by
      split at hmb
      · omega
      · exact hmb
    rw [filled_open, filled_offer]
    have hpaid : (filledOrder o m L).paid = o.paid + quoteCeil L m := by unfold filledOrder; rw [hd]
    rw [hpaid]
    have hle : o.paid + quoteCeil L m ≤ o.offer := by have := hok.paid_le; rw [hpaid, filled_offer] at this; exact this
    have key : min (o.openAmt - m) ((o.offer - (o.paid + quoteCeil L m)) * Dec.one / p) = 0 := by
      have h3 : 0 ≤ (o.offer - (o.paid + quoteCeil L m)) * Dec.one / p :=
        Int.ediv_nonneg (mul_nonneg (by omega) (by decide)) (le_of_lt hp0)
      rcases le_total o.openAmt ((o.offer - o.paid) * Dec.one / L) with hc | hc
      · have : o.openAmt - m = 0 := by omega
        omega
      · have hmm : m = (o.offer - o.paid) * Dec.one / L := by omega
        have h3 : (o.offer - (o.paid + quoteCeil L m)) * Dec.one / p = 0 := by
          apply Int.ediv_eq_zero_of_lt
          · exact mul_nonneg (by omega) (by decide)
          · have h4 := Int.lt_ediv_add_one_mul_self ((o.offer - o.paid) * Dec.one) hL
            rw [← hmm] at h4
            have h5 := (quoteCeil_spec (p := L) (a := m) (by positivity)).2.1
            have : (o.offer - (o.paid + quoteCeil L m)) * Dec.one
                = (o.offer - o.paid) * Dec.one - quoteCeil L m * Dec.one := by ring
            rw [this]; nlinarith
        have := matchable_le_open h hL
        omega
    rw [key]; simp [quoteFloor_zero]

/-- A sell filled at `L` by all it could sell there is dead up to `L`. -/
theorem filled_dead_sell {o : Order} (h : OrderOk o) (hd : o.dir = .sell) {L : Int} :
    DeadSell L (filledOrder o (matchableAmount o L) L) := by
  intro p hp0 hp
  have hd' : (filledOrder o (matchableAmount o L) L).dir = .sell := by rw [filled_dir, hd]
  rw [matchable_sell hd', filled_open, matchable_sell hd]
  by_cases e : quoteFloor L o.openAmt = 0
  · rw [if_pos e, sub_zero]
    have h1 := quoteFloor_mono_price (le_of_lt hp0) h.open_nonneg hp
    have h2 := (quoteFloor_spec (p := p) (a := o.openAmt) (mul_nonneg (le_of_lt hp0) h.open_nonneg)).1
    rw [if_pos (by omega)]
  · rw [if_neg e]; simp [quoteFloor_zero]

/-- Fills only reduce what is open and the money left. -/
theorem ValidSeq.shrinks {h : Heap} {fs : List Fill} (hv : ValidSeq h fs) {q : Nat} (hq : OrderOk (h q)) :
    OrderOk (applyFills h fs q) ∧ (applyFills h fs q).openAmt ≤ (h q).openAmt ∧
    (applyFills h fs q).offer - (applyFills h fs q).paid ≤ (h q).offer - (h q).paid := by
  induction hv with
  | nil h => exact ⟨hq, le_refl _, le_refl _⟩
  | cons h f fs a b c d _ ih =>
    rw [applyFills_cons]
    have key : OrderOk (applyFill h f q) ∧ (applyFill h f q).openAmt ≤ (h q).openAmt ∧
        (applyFill h f q).offer - (applyFill h f q).paid ≤ (h q).offer - (h q).paid := by
      unfold applyFill
      by_cases e : q = f.ptr
      · rw [if_pos e]
        subst e
        refine ⟨filled_ok hq b (le_of_lt a) c, by rw [filled_open]; omega, ?_⟩
        rw [filled_offer]
        have : (h f.ptr).paid ≤ (filledOrder (h f.ptr) f.amt f.price).paid := by
          unfold filledOrder
          split
          · have := (quoteCeil_spec (p := f.price) (a := f.amt) (by positivity)).1
            simp only; omega
          · simp only; omega
        omega
      · rw [if_neg e]; exact ⟨hq, le_refl _, le_refl _⟩
    obtain ⟨k1, k2, k3⟩ := key
    obtain ⟨i1, i2, i3⟩ := ih k1
    exact ⟨i1, by omega, by omega⟩

theorem ValidSeq.deadBuy {h : Heap} {fs : List Fill} (hv : ValidSeq h fs) {q : Nat} (hq : OrderOk (h q)) {L : Int} (hL : 0 < L)
    (hd : DeadBuy L (h q)) : DeadBuy L (applyFills h fs q) := by
  obtain ⟨a, b, c⟩ := hv.shrinks hq
  exact fun p hp => dead_mono hq a (applyFills_dir _ _ _) b c (by omega) (hd p hp)

theorem ValidSeq.deadSell {h : Heap} {fs : List Fill} (hv : ValidSeq h fs) {q : Nat} (hq : OrderOk (h q)) {L : Int}
    (hd : DeadSell L (h q)) : DeadSell L (applyFills h fs q) := by
  obtain ⟨a, b, c⟩ := hv.shrinks hq
  exact fun p hp0 hp => dead_mono hq a (applyFills_dir _ _ _) b c hp0 (hd p hp0 hp)

/-- In the log every filled sell asks at most what every filled buy bids (`h0` holds the orders' prices). -/
def Crossing (h0 : Heap) (log : List Fill) : Prop :=
  ∀ f ∈ log, ∀ g ∈ log, (h0 f.ptr).dir = .buy → (h0 g.ptr).dir = .sell → (h0 g.ptr).price ≤ (h0 f.ptr).price

/-- A filled buy is no obstacle for the remaining buy ticks. -/
def BuyPassed (L : Int) (h : Heap) (bs : List Tick) (x : Int) : Prop :=
  (∀ t ∈ bs, t.price ≤ x) ∨ (L ≤ x ∧ ∀ t ∈ bs, x < t.price → ∀ q ∈ t.orders, DeadBuy L (h q))

def SellPassed (L : Int) (h : Heap) (ss : List Tick) (x : Int) : Prop :=
  (∀ t ∈ ss, x ≤ t.price) ∨ (x ≤ L ∧ ∀ t ∈ ss, t.price < x → ∀ q ∈ t.orders, DeadSell L (h q))

theorem BuyPassed.sub {L : Int} {h : Heap} {bs bs' : List Tick} {x : Int} (hb : BuyPassed L h bs x) (hs : ∀ t ∈ bs', t ∈ bs) :
    BuyPassed L h bs' x := hb.imp (fun k t ht => k t (hs t ht)) (fun k => ⟨k.1, fun t ht => k.2 t (hs t ht)⟩)

theorem SellPassed.sub {L : Int} {h : Heap} {bs bs' : List Tick} {x : Int} (hb : SellPassed L h bs x) (hs : ∀ t ∈ bs', t ∈ bs) :
    SellPassed L h bs' x := hb.imp (fun k t ht => k t (hs t ht)) (fun k => ⟨k.1, fun t ht => k.2 t (hs t ht)⟩)

theorem total_zero {h : Heap} {ps : List Nat} {p : Int} (hz : ∀ q ∈ ps, matchableAmount (h q) p = 0) : totalMatchable h ps p = 0 := by
  rw [totalMatchable_eq]
  apply List.sum_eq_zero
  intro x hx
  obtain ⟨q, hq, rfl⟩ := List.mem_map.1 hx
  exact hz q hq

theorem loop_crossing {h0 : Heap} {L : Int} (hL : 0 < L) {dir : PriceDir} : ∀ (fuel : Nat) {st st' : MState} {bs ss : List Tick}
    {mp mp' : Int} {m m' : Bool}, SideOk st.heap .buy bs → SideOk st.heap .sell ss →
    bs.Pairwise (fun a b => b.price < a.price) → ss.Pairwise (fun a b => a.price < b.price) →
    (∀ q, (st.heap q).dir = (h0 q).dir ∧ (st.heap q).price = (h0 q).price) →
    (∀ f ∈ st.log, (h0 f.ptr).dir = .buy → BuyPassed L st.heap bs (h0 f.ptr).price) →
    (∀ f ∈ st.log, (h0 f.ptr).dir = .sell → SellPassed L st.heap ss (h0 f.ptr).price) →
    Crossing h0 st.log → matchLoop dir fuel st bs ss mp m = some (st', mp', m') → Crossing h0 st'.log := by
  intro fuel
  induction fuel with
  | zero =>
    intro st st' bs ss mp mp' m m' _ _ _ _ _ _ _ hc h
    simp only [matchLoop, Option.some.injEq, Prod.mk.injEq] at h
    rw [← h.1]; exact hc
  | succ n ih =>
    intro st st' bs ss mp mp' m m' hb hs ob os hst ib is hc h
    cases bs with
    | nil => simp only [matchLoop, Option.some.injEq, Prod.mk.injEq] at h; rw [← h.1]; exact hc
    | cons bt bs =>
      cases ss with
      | nil => simp only [matchLoop, Option.some.injEq, Prod.mk.injEq] at h; rw [← h.1]; exact hc
      | cons sk ss =>
        rw [matchLoop.eq_4] at h
        by_cases hcross : bt.price < sk.price
        · rw [if_pos hcross] at h
          simp only [Option.some.injEq, Prod.mk.injEq] at h; rw [← h.1]; exact hc
        · rw [if_neg hcross] at h
          simp only at h
          obtain ⟨b1, b2, b3, b4, b5, b6⟩ := hb.head
          obtain ⟨s1, s2, s3, s4, s5, s6⟩ := hs.head
          set p := (if dir = .increasing then sk.price else bt.price) with hpdef
          have hp : 0 < p := by rw [hpdef]; split <;> omega
          have hpb : p ≤ bt.price := by rw [hpdef]; split <;> omega
          have hps : sk.price ≤ p := by rw [hpdef]; split <;> omega
          set bAmt := totalMatchable st.heap bt.orders p with hbA
          set sAmt := totalMatchable st.heap sk.orders p with hsA
          by_cases hbpos : ¬ 0 < bAmt
          · rw [if_pos hbpos] at h
            exact ih hb.tail hs ob.tail os hst (fun f hf hd => (ib f hf hd).sub (fun t ht => List.mem_cons_of_mem _ ht)) is hc h
          rw [if_neg hbpos] at h
          by_cases hspos : ¬ 0 < sAmt
          · rw [if_pos hspos] at h
            exact ih hb hs.tail ob os.tail hst ib (fun f hf hd => (is f hf hd).sub (fun t ht => List.mem_cons_of_mem _ ht)) hc h
          rw [if_neg hspos] at h
          have hmb : (if bAmt ≤ sAmt then bAmt else sAmt) = min bAmt sAmt := by split <;> omega
          have hms : (if sAmt ≤ bAmt then sAmt else bAmt) = min bAmt sAmt := by split <;> omega
          rw [hmb, hms] at h
          have hmpos : 0 < min bAmt sAmt := by omega
          obtain ⟨fb, f1, f2, f3, f4, _, _⟩ := distributeToTick_spec hp st bt (min bAmt sAmt) b1 b2 (by omega) (by omega)
          rw [f1] at h
          simp only at h
          have hdisj : ∀ q ∈ sk.orders, applyFills st.heap fb q = st.heap q := by
            intro q hq
            apply applyFills_other
            intro f hf e
            have h1 := b3 _ (f2.sub f hf)
            have h2 := s3 _ hq
            rw [e, h2] at h1; cases h1
          have hks : HeapOk (applyFills st.heap fb) sk.orders := f2.heapOk hp s2
          have hsA' : totalMatchable (applyFills st.heap fb) sk.orders p = sAmt := by
            rw [totalMatchable_congr hdisj]
          obtain ⟨fsl, g1, g2, g3, g4, _, _⟩ := distributeToTick_spec hp (st.run fb) sk (min bAmt sAmt) s1 hks (by omega)
            (by show _ ≤ totalMatchable (applyFills st.heap fb) sk.orders p; rw [hsA']; omega)
          rw [g1] at h
          simp only at h
          rw [run_append] at h
          have sb : amtSum fb = min bAmt sAmt := f4 hmpos (Or.inl b3)
          have hgood : Good st.heap (fb ++ fsl) := by
            apply good_step hp hmpos (B := bt.orders) (S := sk.orders) _ _ f2 g2 sb g3 (fun h1 => g4 hmpos (Or.inr h1))
            · intro q hq; exact ⟨b3 q hq, by rw [b4 q hq]; exact hpb⟩
            · intro q hq; exact ⟨s3 q hq, by rw [s4 q hq]; exact hps⟩
          have hb2 : SideOk (st.run (fb ++ fsl)).heap .buy (bt :: bs) := hb.applyGood hgood.valid
          have hs2 : SideOk (st.run (fb ++ fsl)).heap .sell (sk :: ss) := hs.applyGood hgood.valid
          have hlog : (st.run (fb ++ fsl)).log = st.log ++ (fb ++ fsl) := rfl
          have bsub : ∀ t ∈ (if bAmt ≤ sAmt then bs else bt :: bs), t ∈ bt :: bs := by
            intro t ht; split at ht
            · exact List.mem_cons_of_mem _ ht
            · exact ht
          have ssub : ∀ t ∈ (if sAmt ≤ bAmt then ss else sk :: ss), t ∈ sk :: ss := by
            intro t ht; split at ht
            · exact List.mem_cons_of_mem _ ht
            · exact ht
          have nb : ∀ f ∈ fb, (h0 f.ptr).dir = .buy ∧ (h0 f.ptr).price = bt.price := by
            intro f hf
            have := hst f.ptr
            exact ⟨by rw [← this.1]; exact b3 _ (f2.sub f hf), by rw [← this.2]; exact b4 _ (f2.sub f hf)⟩
          have ns : ∀ f ∈ fsl, (h0 f.ptr).dir = .sell ∧ (h0 f.ptr).price = sk.price := by
            intro f hf
            have := hst f.ptr
            exact ⟨by rw [← this.1]; exact s3 _ (g2.sub f hf), by rw [← this.2]; exact s4 _ (g2.sub f hf)⟩
          have bmax : ∀ t ∈ bt :: bs, t.price ≤ bt.price := by
            intro t ht
            rcases List.mem_cons.1 ht with rfl | ht
            · exact le_refl _
            · exact le_of_lt ((List.pairwise_cons.1 ob).1 t ht)
          have smin : ∀ t ∈ sk :: ss, sk.price ≤ t.price := by
            intro t ht
            rcases List.mem_cons.1 ht with rfl | ht
            · exact le_refl _
            · exact le_of_lt ((List.pairwise_cons.1 os).1 t ht)
          refine ih (st := st.run (fb ++ fsl)) ?_ ?_ ?_ ?_ ?_ ?_ ?_ ?_ h
          · split
            · exact hb2.tail
            · exact hb2
          · split
            · exact hs2.tail
            · exact hs2
          · split
            · exact ob.tail
            · exact ob
          · split
            · exact os.tail
            · exact os
          · intro q
            show (applyFills st.heap (fb ++ fsl) q).dir = _ ∧ (applyFills st.heap (fb ++ fsl) q).price = _
            rw [applyFills_dir, applyFills_price]; exact hst q
          · rw [hlog]
            intro f hf hd
            rcases List.mem_append.1 hf with hf | hf
            · refine BuyPassed.sub ?_ bsub
              refine (ib f hf hd).imp id (fun k => ⟨k.1, fun t ht hlt q hq => ?_⟩)
              exact hgood.valid.deadBuy (hb.ok q (List.mem_flatMap.2 ⟨t, ht, hq⟩)) hL (k.2 t ht hlt q hq)
            · rcases List.mem_append.1 hf with hf | hf
              · left; rw [(nb f hf).2]; exact fun t ht => bmax t (bsub t ht)
              · rw [(ns f hf).1] at hd; cases hd
          · rw [hlog]
            intro f hf hd
            rcases List.mem_append.1 hf with hf | hf
            · refine SellPassed.sub ?_ ssub
              refine (is f hf hd).imp id (fun k => ⟨k.1, fun t ht hlt q hq => ?_⟩)
              exact hgood.valid.deadSell (hs.ok q (List.mem_flatMap.2 ⟨t, ht, hq⟩)) (k.2 t ht hlt q hq)
            · rcases List.mem_append.1 hf with hf | hf
              · rw [(nb f hf).1] at hd; cases hd
              · left; rw [(ns f hf).2]; exact fun t ht => smin t (ssub t ht)
          · rw [hlog]
            have oldbuy : ∀ f ∈ st.log, (h0 f.ptr).dir = .buy → sk.price ≤ (h0 f.ptr).price := by
              intro f hf hd
              rcases ib f hf hd with k | ⟨k1, k2⟩
              · have := k bt (by simp); omega
              · by_contra hlt
                have : bAmt = 0 := by
                  rw [hbA]
                  apply total_zero
                  intro q hq
                  exact k2 bt (by simp) (by omega) q hq p (by omega)
                omega
            have oldsell : ∀ f ∈ st.log, (h0 f.ptr).dir = .sell → (h0 f.ptr).price ≤ bt.price := by
              intro f hf hd
              rcases is f hf hd with k | ⟨k1, k2⟩
              · have := k sk (by simp); omega
              · by_contra hlt
                have : sAmt = 0 := by
                  rw [hsA]
                  apply total_zero
                  intro q hq
                  exact k2 sk (by simp) (by omega) q hq p hp (by omega)
                omega
            intro f hf g hg hdf hdg
            rcases List.mem_append.1 hf with hf | hf
            · rcases List.mem_append.1 hg with hg | hg
              · exact hc f hf g hg hdf hdg
              · rcases List.mem_append.1 hg with hg | hg
                · rw [(nb g hg).1] at hdg; cases hdg
                · rw [(ns g hg).2]; exact oldbuy f hf hdf
            · rcases List.mem_append.1 hf with hf | hf
              · rw [(nb f hf).2]
                rcases List.mem_append.1 hg with hg | hg
                · exact oldsell g hg hdg
                · rcases List.mem_append.1 hg with hg | hg
                  · rw [(nb g hg).1] at hdg; cases hdg
                  · rw [(ns g hg).2]; omega
              · rw [(ns f hf).1] at hdf; cases hdf

end Verif.Amm

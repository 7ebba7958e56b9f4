import Verif.Proofs.Book
import Verif.Props.View
import Verif.Proofs.Trading
import Verif.Proofs.SaneDemo
import Verif.Props.Trade
import Verif.Props.Price
/-! # C49: the order book query -/
namespace Verif.Props
open Verif Verif.Amm Verif.Spec

/-- **C49** Fitting a non-negative price to a gap gives the greatest multiple at or below it (down) or the least multiple at or
above it (up). -/
theorem C49_fit (price gap : Int) (h0 : 0 ≤ price) (hg : 0 < gap) :
    (gap ∣ fitPriceToTickGap price gap true ∧ fitPriceToTickGap price gap true ≤ price ∧
      ∀ m, gap ∣ m → m ≤ price → m ≤ fitPriceToTickGap price gap true) ∧
    (gap ∣ fitPriceToTickGap price gap false ∧ price ≤ fitPriceToTickGap price gap false ∧
      ∀ m, gap ∣ m → price ≤ m → fitPriceToTickGap price gap false ≤ m) := by
  obtain ⟨d1, d2, d3⟩ := fit_down h0 hg
  obtain ⟨u1, u2, u3⟩ := fit_up h0 hg
  have key : ∀ a b : Int, gap ∣ a → gap ∣ b → a < b → a + gap ≤ b := by
    intro a b ha hb hlt
    obtain ⟨k, hk⟩ := dvd_walk hg ha hb (by omega)
    have : k ≠ 0 := by rintro rfl; simp at hk; omega
    have := Int.mul_le_mul_of_nonneg_right (show (1:Int) ≤ k by omega) (Int.le_of_lt hg)
    omega
  refine ⟨⟨d1, d2, fun m hm hle => ?_⟩, u1, u2, fun m hm hle => ?_⟩
  · by_contra hc
    have := key _ _ d1 hm (by omega)
    omega
  · by_contra hc
    have := key _ _ hm u1 (by omega)
    omega

example : fitPriceToTickGap 12345 100 true = 12300 ∧ fitPriceToTickGap 12345 100 false = 12400 ∧
    fitPriceToTickGap 12300 100 false = 12300 := by decide

theorem tickGap_pos (p : Int) (prec : Nat) : 0 < tickGap p prec := by
  unfold tickGap pow10; exact Int.pow_pos (by omega)

theorem mapM_forall₂ {α β : Type} {f : α → Option β} {R : α → β → Prop} :
    ∀ {l : List α} {bs : List β}, l.mapM f = some bs → (∀ a ∈ l, ∀ b, f a = some b → R a b) → List.Forall₂ R l bs := by
  intro l
  induction l with
  | nil => intro bs h _; simp at h; subst h; exact .nil
  | cons a l ih =>
    intro bs h hR
    rw [List.mapM_cons] at h
    simp only [Option.pure_def, Option.bind_eq_bind, Option.bind_eq_some_iff] at h
    obtain ⟨b, hb, bs', hbs, e⟩ := h
    cases e
    exact .cons (hR a (by simp) b hb) (ih hbs (fun x hx => hR x (by simp [hx])))

theorem mapM_isSome {α β : Type} {f : α → Option β} : ∀ {l : List α}, (∀ a ∈ l, ∃ b, f a = some b) → ∃ bs, l.mapM f = some bs := by
  intro l
  induction l with
  | nil => intro _; exact ⟨[], by simp⟩
  | cons a l ih =>
    intro h
    obtain ⟨b, hb⟩ := h a (by simp)
    obtain ⟨bs, hbs⟩ := ih (fun x hx => h x (by simp [hx]))
    exact ⟨b :: bs, by rw [List.mapM_cons]; simp [hb, hbs]⟩

theorem lowest_pos_of_view {v : OrderBookView} (hv : ViewOk v) (h0 : v.sellAmountUnder 0 true = 0) (ls : Int)
    (h : v.lowestSellPrice = some ls) : 0 < ls := by
  obtain ⟨h1, _, _⟩ := lowestSell_iff hv ls h
  by_contra hc
  have := sellUnder_mono hv (show ls ≤ 0 by omega)
  omega

theorem highest_pos_of_view {v : OrderBookView} (hv : ViewOk v)
    (h0 : ∀ p, p ≤ 1 → v.buyAmountOver p true = v.buyAmountOver 1 true) (hb : Int)
    (h : v.highestBuyPrice = some hb) : 0 < hb := by
  obtain ⟨h1, h2, _⟩ := highestBuy_iff hv hb h
  by_contra hc
  have := h2 1 (by omega)
  have := h0 hb (by omega)
  omega

/-- The view part of C49, for a view with positive prices. -/
theorem response_shows {v : OrderBookView} (hv : ViewOk v) (h0 : v.sellAmountUnder 0 true = 0)
    (h1 : ∀ p, p ≤ 1 → v.buyAmountOver p true = v.buyAmountOver 1 true) (pairId : Nat) (lowest highest : Int) (prec : Nat)
    (powers : List Nat) (hp : powers ≠ []) (n : Nat) (hn : n ≠ 0) :
    ∃ r, makeOrderBookPairResponse pairId v lowest highest prec powers n = some r ∧ r.pairId = pairId ∧
      ShowsView v lowest highest prec powers n r := by
  unfold makeOrderBookPairResponse
  have hbooks : ∀ base, (v.highestBuyPrice ≠ none ∨ v.lowestSellPrice ≠ none) → ∃ bs u ks,
      (match (some base : Option Int) with
        | none => some ⟨pairId, none, []⟩
        | some base =>
          match powers with
          | [] => none
          | _ :: _ =>
            match smallestPriceUnit v highest prec n with
            | none => none
            | some u =>
              ((powers.insertionSort (· ≤ ·)).mapM (fun k => bookResponse v lowest highest u n k)).map
                (fun bs => ⟨pairId, some base, bs⟩)) = some (⟨pairId, some base, bs⟩ : PairResponse) ∧
      IsPriceUnit v prec highest n u ∧ 0 < u ∧ ks.Perm powers ∧ ks.Pairwise (· ≤ ·) ∧
      List.Forall₂ (fun k (b : BookResponse) => b.unit = u * 10 ^ k ∧
        ReportsSells (fun p => v.sellAmountUnder p true) b.unit highest n b.sells ∧
        ReportsBuys (fun p => v.buyAmountOver p true) b.unit lowest n b.buys) ks bs := by
    intro base hne
    obtain ⟨u, hu, hU⟩ : ∃ u, smallestPriceUnit v highest prec n = some u ∧ IsPriceUnit v prec highest n u := by
      unfold smallestPriceUnit
      cases hls : v.lowestSellPrice with
      | some ls =>
        obtain ⟨_, _, b3⟩ := lowestSell_iff hv ls hls
        obtain ⟨c, e, hc⟩ := unitPriceLoop_spec hv b3 (prec := prec) (highest := highest) _ n ls
          (lowest_pos_of_view hv h0 ls hls) hn (le_refl _)
        exact ⟨tickGap c prec, by simp [e], Or.inl ⟨ls, c, hls, hc, rfl⟩⟩
      | none =>
        cases hhb : v.highestBuyPrice with
        | none => rw [hls, hhb] at hne; simp at hne
        | some hb => exact ⟨tickGap hb prec, by simp, Or.inr ⟨hb, hls, hhb, rfl⟩⟩
    have hpos : 0 < u := by
      rcases hU with ⟨_, c, _, _, rfl⟩ | ⟨hb, _, _, rfl⟩ <;> exact tickGap_pos _ _
    have hper := List.perm_insertionSort (· ≤ ·) powers
    have hone : ∀ k, ∃ b, bookResponse v lowest highest u n k = some b ∧ (b.unit = u * 10 ^ k ∧
        ReportsSells (fun p => v.sellAmountUnder p true) b.unit highest n b.sells ∧
        ReportsBuys (fun p => v.buyAmountOver p true) b.unit lowest n b.buys) := by
      intro k
      have hk : 0 < u * 10 ^ k := Int.mul_pos hpos (Int.pow_pos (by omega))
      obtain ⟨L, eL, hL⟩ := sellLevels_spec hv (highest := highest) hk n
        (fun ls h => Int.le_of_lt (lowest_pos_of_view hv h0 ls h))
      obtain ⟨M, eM, hM⟩ := buyLevels_spec hv (lowest := lowest) hk n
        (fun hb h => Int.le_of_lt (highest_pos_of_view hv h1 hb h))
      refine ⟨⟨u * 10 ^ k, L, M⟩, ?_, rfl, hL, hM⟩
      unfold bookResponse
      simp only [eL, eM]
    obtain ⟨bs, hbs⟩ := mapM_isSome (l := powers.insertionSort (· ≤ ·))
      (f := fun k => bookResponse v lowest highest u n k) (fun k _ => ⟨_, (hone k).choose_spec.1⟩)
    refine ⟨bs, u, powers.insertionSort (· ≤ ·), ?_, hU, hpos, hper, ?_, ?_⟩
    · cases powers with
      | nil => exact absurd rfl hp
      | cons x xs => simp only [hu]; rw [hbs]; rfl
    · exact List.pairwise_insertionSort (· ≤ ·) powers
    · refine mapM_forall₂ hbs ?_
      intro k _ b hb
      obtain ⟨b', e', r⟩ := hone k
      rw [e'] at hb; cases hb; exact r
  cases hhb : v.highestBuyPrice with
  | none =>
    cases hls : v.lowestSellPrice with
    | none =>
      refine ⟨⟨pairId, none, []⟩, by simp [orderBookBasePrice, hhb, hls], rfl, ?_⟩
      refine ⟨?_, ?_, ?_, ?_, ?_⟩ <;> simp [hhb, hls]
    | some ls =>
      obtain ⟨bs, u, ks, e, r⟩ := hbooks ls (Or.inr (by rw [hls]; simp))
      refine ⟨_, by rw [show orderBookBasePrice v prec = some ls by simp [orderBookBasePrice, hhb, hls]]; exact e, rfl, ?_⟩
      refine ⟨?_, ?_, ?_, ?_, fun _ => ⟨u, ks, r⟩⟩ <;> simp [hhb, hls]
  | some hb =>
    cases hls : v.lowestSellPrice with
    | none =>
      obtain ⟨bs, u, ks, e, r⟩ := hbooks hb (Or.inl (by rw [hhb]; simp))
      refine ⟨_, by rw [show orderBookBasePrice v prec = some hb by simp [orderBookBasePrice, hhb, hls]]; exact e, rfl, ?_⟩
      refine ⟨?_, ?_, ?_, ?_, fun _ => ⟨u, ks, r⟩⟩ <;> simp [hhb, hls]
    | some ls =>
      obtain ⟨bs, u, ks, e, r⟩ := hbooks (roundPrice ((hb + ls).tdiv 2) prec) (Or.inl (by rw [hhb]; simp))
      refine ⟨_, by rw [show orderBookBasePrice v prec = some (roundPrice ((hb + ls).tdiv 2) prec) by
        simp [orderBookBasePrice, hhb, hls]]; exact e, rfl, ?_⟩
      have p1 := lowest_pos_of_view hv h0 ls hls
      have p2 := highest_pos_of_view hv h1 hb hhb
      refine ⟨?_, ?_, ?_, ?_, fun _ => ⟨u, ks, r⟩⟩
      · simp [hhb]
      · simp [hls]
      · simp [hhb]
      · intro b s h h'
        rw [hhb] at h; rw [hls] at h'; cases h; cases h'
        rw [Int.tdiv_eq_ediv_of_nonneg (by omega)]

/-- Depths of a matched view: the depths of the orders with one amount taken off both sides. -/
theorem match_depth (h : Heap) (ps : List Nat) (hl : ∀ p ∈ ps, Live (h p)) :
    ViewOk (makeView h (newOrderBook h ps)).match ∧
    ∃ m, 0 ≤ m ∧ (∀ p, (makeView h (newOrderBook h ps)).match.sellAmountUnder p true =
        max 0 (ownDepth h ps .sell (fun x => x ≤ p) - m)) ∧
      (∀ p, (makeView h (newOrderBook h ps)).match.buyAmountOver p true = max 0 (ownDepth h ps .buy (fun x => p ≤ x) - m)) ∧
      (IsBestMatch (makeView h (newOrderBook h ps)) m ∨ m = 0 ∧
        ∃ k, IsBestMatch (makeView h (newOrderBook h ps)) k ∧ (∀ p, ownDepth h ps .buy (fun x => p ≤ x) ≤ k) ∧
          ∀ p, ownDepth h ps .sell (fun x => x ≤ p) ≤ k) := by
  obtain ⟨hv, hb, hs⟩ := view_ok h ps
  refine ⟨match_ok hv hb hs, ?_⟩
  obtain ⟨m, hm⟩ := best_exists hv
  have hd := fun p => C28_depth h ps hl p
  by_cases hc : (∃ p, m < (makeView h (newOrderBook h ps)).buyAmountOver p true) ∨
      (∃ p, m < (makeView h (newOrderBook h ps)).sellAmountUnder p true) ∨ m = 0
  · have := (C53_uncrossed_partial h ps m hm hc).1
    refine ⟨m, hm.nonneg, fun p => ?_, fun p => ?_, Or.inl hm⟩
    · rw [(this p true).2, (hd p).2.2.1]
    · rw [(this p true).1, (hd p).1]
  · push Not at hc
    obtain ⟨c1, c2, c3⟩ := hc
    have e := match_balanced hv hb hs hm (by have := hm.nonneg; omega) c1 c2
    refine ⟨0, le_refl _, fun p => ?_, fun p => ?_, Or.inr ⟨rfl, m, hm, fun p => ?_, fun p => ?_⟩⟩
    · rw [e, ← (hd p).2.2.1]
      have := (sellUnder_acc hv p true).nonneg; omega
    · rw [e, ← (hd p).1]
      have := (buyOver_acc hv p true).nonneg; omega
    · rw [← (hd p).1]; exact c1 p
    · rw [← (hd p).2.2.1]; exact c2 p

theorem ownDepth_zero (h : Heap) (ps : List Nat) (hl : ∀ p ∈ ps, Live (h p)) : ownDepth h ps .sell (fun x => x ≤ 0) = 0 := by
  unfold ownDepth
  have : ps.filter (fun p => decide ((h p).dir = .sell ∧ (h p).price ≤ 0)) = [] := by
    rw [List.filter_eq_nil_iff]
    intro p hpm
    have := (hl p hpm).price_pos
    simp; omega
  rw [this]; rfl

theorem ownDepth_one (h : Heap) (ps : List Nat) (hl : ∀ p ∈ ps, Live (h p)) (p : Int) (hp : p ≤ 1) :
    ownDepth h ps .buy (fun x => p ≤ x) = ownDepth h ps .buy (fun x => 1 ≤ x) := by
  unfold ownDepth
  congr 2
  apply List.filter_congr
  intro q hq
  have := (hl q hq).price_pos
  have e : (p ≤ (h q).price) ↔ (1 ≤ (h q).price) := by constructor <;> intro <;> omega
  simp [e]

theorem sum_over_range (os : List Order) (d : Dir) (q : Int → Prop) [DecidablePred q] :
    ownDepth (Dex.heapOf os) (List.range os.length) d q = depthOf os d q := by
  unfold ownDepth depthOf
  have e : os = (List.range os.length).map (Dex.heapOf os) := by
    apply List.ext_getElem
    · simp
    · intro i h1 h2
      simp [Dex.heapOf, List.getD_eq_getElem?_getD, h1]
  conv_rhs => rw [e]
  rw [List.filter_map, List.map_map]
  rfl

/-- **C49** The response made from a book of live orders exists and shows the view of the book after matching; the depths of
that view are the depths of the orders less the amount `m` that can trade at one price (C53; nothing is taken off a book that
would be matched completely on both sides). -/
theorem C49_response (os : List Order) (hl : ∀ o ∈ os, Live o) (pairId : Nat) (lowest highest : Int) (prec : Nat)
    (powers : List Nat) (hp : powers ≠ []) (n : Nat) (hn : n ≠ 0) :
    let v := makeView (Dex.heapOf os) (Dex.bookOf os)
    ∃ r m, makeOrderBookPairResponse pairId v.match lowest highest prec powers n = some r ∧ r.pairId = pairId ∧
      ShowsView v.match lowest highest prec powers n r ∧
      (∀ p, v.match.sellAmountUnder p true = max 0 (depthOf os .sell (fun x => x ≤ p) - m) ∧
        v.match.buyAmountOver p true = max 0 (depthOf os .buy (fun x => p ≤ x) - m)) ∧
      (IsBestMatch v m ∨ m = 0 ∧ ∃ k, IsBestMatch v k ∧ (∀ p, depthOf os .buy (fun x => p ≤ x) ≤ k) ∧
        ∀ p, depthOf os .sell (fun x => x ≤ p) ≤ k) := by
  intro v
  have hl' : ∀ p ∈ List.range os.length, Live (Dex.heapOf os p) := by
    intro p hp
    simp at hp
    have : Dex.heapOf os p = os[p] := by simp [Dex.heapOf, List.getD_eq_getElem?_getD, hp]
    rw [this]; exact hl _ (List.getElem_mem hp)
  obtain ⟨hok, m, m0, ms, mb, mm⟩ := match_depth (Dex.heapOf os) (List.range os.length) hl'
  have hz : v.match.sellAmountUnder 0 true = 0 := by
    rw [show v.match.sellAmountUnder 0 true = _ from ms 0, ownDepth_zero _ _ hl']; omega
  have ho : ∀ p, p ≤ 1 → v.match.buyAmountOver p true = v.match.buyAmountOver 1 true := by
    intro p hp1
    rw [show v.match.buyAmountOver p true = _ from mb p, show v.match.buyAmountOver 1 true = _ from mb 1,
      ownDepth_one _ _ hl' p hp1]
  obtain ⟨r, e, h1, h2⟩ := response_shows (v := v.match) hok hz ho pairId lowest highest prec powers hp n hn
  refine ⟨r, m, e, h1, h2, fun p => ⟨?_, ?_⟩, ?_⟩
  · rw [← sum_over_range]; exact ms p
  · rw [← sum_over_range]; exact mb p
  · rcases mm with h | ⟨h, k, hk, a, b⟩
    · exact Or.inl h
    · exact Or.inr ⟨h, k, hk, fun p => by rw [← sum_over_range]; exact a p, fun p => by rw [← sum_over_range]; exact b p⟩

open Verif.Dex

theorem ammPool_price {env : Env} {pool : PoolRec} {rx ry ps qs : Int} {ap : Pool} (h : ammPool env pool rx ry ps = some ap) :
    ∃ aq, ammPool env pool rx ry qs = some aq ∧ aq.price = ap.price := by
  unfold ammPool at *
  split at h
  · cases h; exact ⟨_, rfl, rfl⟩
  · unfold newRangedPool at *
    simp only [Option.bind_eq_bind, Option.bind_eq_some_iff] at h
    obtain ⟨t, e, h⟩ := h
    simp only [Option.pure_def, Option.some.injEq] at h
    subst h
    refine ⟨{ rx := rx, ry := ry, ps := qs, range := some ⟨_, _, t.1, t.2⟩ }, ?_, rfl⟩
    simp only [e, Option.bind_eq_bind, Option.bind_some, Option.pure_def]

theorem queryBookOrders_live {env : Env} {s : State} (hc : SaneChain env s) (hs : SaneState env s) {pair : Pair}
    (hp : pair ∈ s.pairs) {last lo hi : Int} (hl : pair.lastPrice = some last) (hlim : s.params.priceLimits last = some (lo, hi))
    {os : List Order} (h : queryBookOrders env s pair lo hi = some os) : ∀ o ∈ os, Live o := by
  have hpos := C59_last_price_positive hc pair hp last hl
  have hw := ((C06_price_limits last s.params.maxPriceLimitRatio s.params.tickPrec hpos hs.params.ratio.1
    (by have := hs.params.ratio.2; have e : (10:Int) ^ 18 = Dec.one := by decide
        omega)).1 lo hi hlim).1
  obtain ⟨lp, hp', _, _, c1, c2⟩ := hw
  have hlo := isTick_pos c1.1
  have hhi := isTick_pos c2.1
  unfold queryBookOrders at h
  simp only [Option.map_eq_some_iff] at h
  obtain ⟨pss, hm, rfl⟩ := h
  have hf := mapM_forall₂ (R := fun p (ps : List Order) => p.disabled = false ∧ ∀ o ∈ ps, Live o) hm (by
    intro p hpm ps hps
    simp only [List.mem_filter, State.poolsOf, Bool.not_eq_true'] at hpm
    obtain ⟨⟨hpm, hpair⟩, hdis⟩ := hpm
    refine ⟨hdis, ?_⟩
    simp only [Option.map_eq_some_iff] at hps
    obtain ⟨ap, hap, rfl⟩ := hps
    intro o ho
    refine (poolOrders_pos hlo hhi ?_ o ho).live
    intro pp hpp
    obtain ⟨aq, haq, e⟩ := ammPool_price (qs := s.bank.supply (.pool p.id)) hap
    exact hs.prices p hpm pair hp (by simpa using (beq_iff_eq.1 hpair).symm) aq pp haq (by rw [e]; exact hpp))
  intro o ho
  rcases List.mem_append.1 ho with ho | ho
  · obtain ⟨r, hr, rfl⟩ := List.mem_map.1 ho
    simp only [List.mem_filter, State.ordersOf] at hr
    exact newUser_live (C59_orders_explained hc r hr.1.1).1
  · rename_i ho'
    obtain ⟨ps, hps, hps'⟩ := List.mem_flatten.1 ho
    clear hm ho' ho
    generalize (s.poolsOf pair.id).filter (fun p => !p.disabled) = ls at hf
    induction hf with
    | nil => simp at hps
    | cons hd tl ih =>
      rcases List.mem_cons.1 hps with rfl | h
      · exact hd.2 o hps'
      · exact ih h

/-- **C49** In a sane chain, a successful order book query answers for exactly the pairs asked for, in that order; each answer
shows the view, after matching, of the pair's live user orders and of the orders of its pools that are not disabled, within the
price limits around the last price (with the powers 0, 1, 2 if none are asked for). -/
theorem C49_query {env : Env} {s : State} (hc : SaneChain env s) (hs : SaneState env s) {ids powers : List Nat} {n : Nat}
    {rs : List PairResponse} (h : queryOrderBooks env s ids powers n = some rs) :
    rs.map (·.pairId) = ids ∧ ids ≠ [] ∧ ids.Nodup ∧ n ≠ 0 ∧
    ∀ r ∈ rs, AnswersFor env s (if powers = [] then [0, 1, 2] else powers) n r := by
  unfold queryOrderBooks at h
  have hne : (if powers = [] then [0, 1, 2] else powers) ≠ [] := by split <;> simp_all
  simp only at h
  generalize (if powers = [] then [0, 1, 2] else powers) = pw at *
  by_cases h1 : ids = []
  · rw [if_pos h1] at h; cases h
  rw [if_neg h1] at h
  by_cases h2 : n = 0
  · rw [if_pos h2] at h; cases h
  rw [if_neg h2] at h
  by_cases h3 : ¬ ids.Nodup
  · rw [if_pos h3] at h; cases h
  rw [if_neg h3] at h
  by_cases h4 : ¬ pw.Nodup
  · rw [if_pos h4] at h; cases h
  rw [if_neg h4] at h
  have hf := mapM_forall₂ (R := fun id (r : PairResponse) => r.pairId = id ∧ AnswersFor env s pw n r) h (by
    intro id _ r hr
    unfold queryOrderBook at hr
    split at hr
    · cases hr
    rename_i pair hpair
    split at hr
    · cases hr
    rename_i last hlast
    split at hr
    · cases hr
    rename_i lo hi hlim
    split at hr
    · cases hr
    rename_i os hos
    obtain ⟨hpm, hpid⟩ := ((sane_of_chain hc).reach.wf.getPair_iff).1 hpair
    have hl := queryBookOrders_live hc hs hpm hlast hlim hos
    obtain ⟨r', m, e, i1, i2, i3, i4⟩ := C49_response os hl pair.id lo hi s.params.tickPrec pw hne n h2
    rw [e] at hr; cases hr
    refine ⟨by rw [i1, hpid], pair, hpm, last, lo, hi, os, m, i1.symm, hlast, hlim, ?_, i2, i3, i4⟩
    unfold queryBookOrders at hos
    simp only [Option.map_eq_some_iff] at hos
    obtain ⟨pss, hm, rfl⟩ := hos
    refine ⟨pss, ?_, ?_⟩
    · have := mapM_forall₂ (R := fun (pool : PoolRec) orders => ∃ ap, ammPool env pool (s.bank.bal (.poolReserve pool.id) pair.quote)
          (s.bank.bal (.poolReserve pool.id) pair.base) 0 = some ap ∧ orders = poolOrders env.sqrt pool.id ap lo hi s.params.tickPrec) hm
        (by
          intro p _ ps hps
          simp only [Option.map_eq_some_iff] at hps
          obtain ⟨ap, hap, rfl⟩ := hps
          exact ⟨ap, hap, rfl⟩)
      unfold State.poolsOf at this
      rw [List.filter_filter] at this
      simpa only [Bool.and_comm] using this
    · unfold State.ordersOf
      rw [List.filter_filter]
      simp only [Bool.and_comm])
  refine ⟨?_, h1, by simpa using h3, h2, ?_⟩
  · clear h h1 h3
    induction hf with
    | nil => rfl
    | cons hd _ ih => rw [List.map_cons, hd.1, ih]
  · clear h h1 h3
    intro r hr
    induction hf with
    | nil => simp at hr
    | cons hd _ ih =>
      rcases List.mem_cons.1 hr with rfl | h
      · exact hd.2
      · exact ih h

/-- **C49** In a sane chain whose pools can be derived, an order book query fails exactly for an empty or repeating list of
pairs, repeating powers, no ticks, or a pair that does not exist, has no last price, or has no price limits. -/
theorem C49_query_succeeds {env : Env} {s : State} (hc : SaneChain env s) (hs : SaneState env s) {ids powers : List Nat} {n : Nat}
    (hd : ∀ pool ∈ s.pools, ∀ pair ∈ s.pairs, (ammPool env pool (s.bank.bal (.poolReserve pool.id) pair.quote)
      (s.bank.bal (.poolReserve pool.id) pair.base) 0).isSome = true) :
    (∃ rs, queryOrderBooks env s ids powers n = some rs) ↔ ids ≠ [] ∧ ids.Nodup ∧ powers.Nodup ∧ n ≠ 0 ∧
      ∀ id ∈ ids, ∃ pair ∈ s.pairs, pair.id = id ∧ ∃ last, pair.lastPrice = some last ∧ s.params.priceLimits last ≠ none := by
  have hnd : (if powers = [] then [0, 1, 2] else powers).Nodup ↔ powers.Nodup := by
    by_cases h : powers = []
    · subst h; simp
    · rw [if_neg h]
  have hne : (if powers = [] then [0, 1, 2] else powers) ≠ [] := by split <;> simp_all
  unfold queryOrderBooks
  simp only
  rw [← hnd]
  generalize (if powers = [] then [0, 1, 2] else powers) = pw at *
  constructor
  · rintro ⟨rs, h⟩
    by_cases h1 : ids = []
    · rw [if_pos h1] at h; cases h
    rw [if_neg h1] at h
    by_cases h2 : n = 0
    · rw [if_pos h2] at h; cases h
    rw [if_neg h2] at h
    by_cases h3 : ¬ ids.Nodup
    · rw [if_pos h3] at h; cases h
    rw [if_neg h3] at h
    by_cases h4 : ¬ pw.Nodup
    · rw [if_pos h4] at h; cases h
    rw [if_neg h4] at h
    refine ⟨h1, by simpa using h3, by simpa using h4, h2, ?_⟩
    have hf := mapM_forall₂ (R := fun id (_ : PairResponse) => ∃ pair ∈ s.pairs, pair.id = id ∧ ∃ last,
      pair.lastPrice = some last ∧ s.params.priceLimits last ≠ none) h (by
      intro id _ r hr
      unfold queryOrderBook at hr
      split at hr
      · cases hr
      rename_i pair hpair
      split at hr
      · cases hr
      rename_i last hlast
      split at hr
      · cases hr
      rename_i lo hi hlim
      obtain ⟨hpm, hpid⟩ := ((sane_of_chain hc).reach.wf.getPair_iff).1 hpair
      exact ⟨pair, hpm, hpid, last, hlast, by rw [hlim]; simp⟩)
    intro id hid
    clear h h1 h3
    induction hf with
    | nil => simp at hid
    | cons hd _ ih =>
      rcases List.mem_cons.1 hid with rfl | h
      · exact hd
      · exact ih h
  · rintro ⟨h1, h3, h4, h2, hall⟩
    rw [if_neg h1, if_neg h2, if_neg (by simpa using h3), if_neg (by simpa using h4)]
    apply mapM_isSome
    intro id hid
    obtain ⟨pair, hpm, hpid, last, hlast, hlim⟩ := hall id hid
    obtain ⟨⟨lo, hi⟩, hlim⟩ := Option.ne_none_iff_exists'.1 hlim
    unfold queryOrderBook
    rw [((sane_of_chain hc).reach.wf.getPair_iff).2 ⟨hpm, hpid⟩]
    simp only [hlast, hlim]
    obtain ⟨os, hos⟩ : ∃ os, queryBookOrders env s pair lo hi = some os := by
      unfold queryBookOrders
      obtain ⟨pss, hps⟩ := mapM_isSome (l := (s.poolsOf pair.id).filter (fun p => !p.disabled))
        (f := fun p => (ammPool env p (s.poolRx p pair) (s.poolRy p pair) 0).map
          (fun ap => poolOrders env.sqrt p.id ap lo hi s.params.tickPrec)) (by
        intro p hp
        simp only [List.mem_filter, State.poolsOf] at hp
        obtain ⟨ap, hap⟩ := Option.isSome_iff_exists.1 (hd p hp.1.1 pair hpm)
        exact ⟨_, by rw [show ammPool env p (s.poolRx p pair) (s.poolRy p pair) 0 = some ap from hap]; rfl⟩)
      exact ⟨_, by rw [hps]; rfl⟩
    rw [hos]
    obtain ⟨r', m, e, _⟩ := C49_response os (queryBookOrders_live hc hs hpm hlast hlim hos) pair.id lo hi s.params.tickPrec pw hne n h2
    exact ⟨r', e⟩

/-- **C49** Pool orders are reported as user orders: a reachable state without any user order whose response has positive user
amounts. -/
theorem C49_pool_orders_shown_as_user_orders : ∃ s, SaneChain Demo.env s ∧ SaneState Demo.env s ∧ s.orders = [] ∧
    ((queryOrderBooks Demo.env s [1] [2] 2).map fun rs => rs.flatMap fun r => r.books.flatMap fun b => b.sells.map (·.userAmt)) =
      some [9918, 10503] := by
  obtain ⟨s, h1, h2, h3⟩ := Demo.saneReach (Demo.traded ++ [.cancelOrder ⟨3, 1, 2⟩, .endBlock, .beginBlock 3 60])
    (fun s => s.orders = [] ∧ ((queryOrderBooks Demo.env s [1] [2] 2).map fun rs => rs.flatMap fun r => r.books.flatMap fun b =>
      b.sells.map (·.userAmt)) = some [9918, 10503]) (by decide +kernel)
  exact ⟨s, h1, h2, h3⟩

/-- A sane state with a successful query over user and pool orders, and two powers. -/
example : ∃ s, SaneChain Demo.env s ∧ SaneState Demo.env s ∧ s.orders.length = 3 ∧
    ((queryOrderBooks Demo.env s [1] [2, 1] 1).map fun rs => rs.flatMap fun r => r.books.flatMap fun b =>
      [[b.unit], b.sells.map (·.userAmt), b.buys.map (·.price)]) =
      some [[1000000000000000], [1058], [980000000000000000], [10000000000000000], [18301], [980000000000000000]] := by
  obtain ⟨s, h1, h2, h3⟩ := Demo.saneReach (Demo.traded ++
      [.limitOrder ⟨3, 1, .sell, ⟨.native 0, 3000⟩, .native 1, 1040000000000000000, 3000, 100⟩,
       .limitOrder ⟨2, 1, .buy, ⟨.native 1, 3000⟩, .native 0, 950000000000000000, 2000, 100⟩])
    (fun s => s.orders.length = 3 ∧
      ((queryOrderBooks Demo.env s [1] [2, 1] 1).map fun rs => rs.flatMap fun r => r.books.flatMap fun b =>
        [[b.unit], b.sells.map (·.userAmt), b.buys.map (·.price)]) =
      some [[1000000000000000], [1058], [980000000000000000], [10000000000000000], [18301], [980000000000000000]]) (by decide +kernel)
  exact ⟨s, h1, h2, h3⟩

end Verif.Props

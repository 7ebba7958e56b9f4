import Mathlib.Data.List.Nodup
import Verif.Proofs.Match
import Verif.Spec.Order
/-! Further facts about matching, in the vocabulary of `Verif.Spec.Order`. -/
namespace Verif.Amm
open Verif Verif.Spec

theorem live_iff (o : Order) : Live o ↔ OrderOk o :=
  ⟨fun ⟨a, b, c, d, e, f, g⟩ => ⟨a, b, c, d, e, f, g⟩, fun ⟨a, b, c, d, e, f, g⟩ => ⟨a, b, c, d, e, f, g⟩⟩

theorem quoteDown_eq {p a : Int} (h : 0 ≤ p * a) : quoteFloor p a = quoteDown p a := by
  rw [quoteFloor_eq h]; rfl

theorem quoteUp_eq {p a : Int} (h : 0 ≤ p * a) : quoteCeil p a = quoteUp p a := by
  obtain ⟨h1, h2, h3⟩ := quoteCeil_spec h
  unfold quoteUp
  rw [one_eq] at *
  generalize p * a = x at *
  omega

theorem fillsOf_cons_self (f : Fill) (fs : List Fill) : fillsOf (f :: fs) f.ptr = f :: fillsOf fs f.ptr := by
  simp [fillsOf]

theorem fillsOf_cons_other {f : Fill} {fs : List Fill} {p : Nat} (h : f.ptr ≠ p) : fillsOf (f :: fs) p = fillsOf fs p := by
  simp [fillsOf, h]

theorem filled_fields (o : Order) {a price : Int} (h : 0 ≤ price * a) :
    (filledOrder o a price).openAmt = o.openAmt - a ∧ (filledOrder o a price).paid = o.paid + cost o.dir price a ∧
    (filledOrder o a price).received = o.received + gain o.dir price a := by
  unfold filledOrder cost gain
  rw [← quoteUp_eq h, ← quoteDown_eq h]
  cases o.dir <;> simp

theorem ValidSeq.pos {h : Heap} {fs : List Fill} (hv : ValidSeq h fs) : ∀ f ∈ fs, 0 < f.amt ∧ 0 < f.price := by
  induction hv with
  | nil h => simp
  | cons h f fs a b c d _ ih => intro g hg; rcases List.mem_cons.1 hg with rfl | hg
                                · exact ⟨a, b⟩
                                · exact ih g hg

theorem ValidSeq.limit {h : Heap} {fs : List Fill} (hv : ValidSeq h fs) : ∀ f ∈ fs, WithinLimit (h f.ptr) f.price := by
  induction hv with
  | nil h => simp
  | cons h f fs a b c d _ ih =>
    intro g hg
    rcases List.mem_cons.1 hg with rfl | hg
    · exact d
    · have := ih g hg
      unfold WithinLimit at *
      have e1 := applyFills_dir h [f] g.ptr
      have e2 := applyFills_price h [f] g.ptr
      simp only [applyFills, List.foldl_cons, List.foldl_nil] at e1 e2
      rw [e1, e2] at this
      exact this

theorem sum_fields {h : Heap} {fs : List Fill} (hpos : ∀ f ∈ fs, 0 < f.amt ∧ 0 < f.price) (p : Nat) :
    (applyFills h fs p).openAmt = (h p).openAmt - ((fillsOf fs p).map (·.amt)).sum ∧
    (applyFills h fs p).paid = (h p).paid + ((fillsOf fs p).map (fun f => cost (h p).dir f.price f.amt)).sum ∧
    (applyFills h fs p).received = (h p).received + ((fillsOf fs p).map (fun f => gain (h p).dir f.price f.amt)).sum := by
  induction fs generalizing h with
  | nil => simp [applyFills, fillsOf]
  | cons f fs ih =>
    rw [applyFills_cons]
    have hp := hpos f (by simp)
    obtain ⟨i1, i2, i3⟩ := ih (h := applyFill h f) (fun g hg => hpos g (List.mem_cons_of_mem _ hg))
    rw [i1, i2, i3]
    by_cases e : f.ptr = p
    · subst e
      have hd : (applyFill h f f.ptr).dir = (h f.ptr).dir := applyFill_dir h f f.ptr
      rw [fillsOf_cons_self, hd]
      have hself : applyFill h f f.ptr = filledOrder (h f.ptr) f.amt f.price := by simp [applyFill]
      obtain ⟨j1, j2, j3⟩ := filled_fields (h f.ptr) (a := f.amt) (price := f.price) (by have := hp.1; have := hp.2; positivity)
      rw [hself, j1, j2, j3]
      simp only [List.map_cons, List.sum_cons]
      refine ⟨by omega, by omega, by omega⟩
    · have ho : applyFill h f p = h p := by unfold applyFill; rw [if_neg (fun e' => e e'.symm)]
      rw [fillsOf_cons_other e, ho]
      exact ⟨rfl, rfl, rfl⟩

theorem ValidSeq.live {h : Heap} {fs : List Fill} (hv : ValidSeq h fs) (p : Nat) (hl : Live (h p)) :
    Live (applyFills h fs p) := by
  have := hv.heapOk (ps := [p]) (fun q hq => by rw [List.mem_singleton.1 hq]; exact (live_iff _).1 hl)
  exact (live_iff _).2 (this p (by simp))

theorem ValidSeq.fair {h : Heap} {fs : List Fill} (hv : ValidSeq h fs) : FairExecution h (applyFills h fs) fs where
  fill_pos := hv.pos
  fill_limit := hv.limit
  static p := ⟨applyFills_dir _ _ _, applyFills_price _ _ _, applyFills_amount _ _ _, applyFills_offer _ _ _,
    applyFills_kind _ _ _⟩
  opened p := (sum_fields hv.pos p).1
  paid p := (sum_fields hv.pos p).2.1
  received p := (sum_fields hv.pos p).2.2
  live p hl := hv.live p hl

theorem baseBought_eq (h : Heap) (fs : List Fill) : baseBought h fs = baseOf h .buy fs := by
  unfold baseBought baseOf
  apply sum_map_congr; intro f _
  cases (h f.ptr).dir <;> simp

theorem baseSold_eq (h : Heap) (fs : List Fill) : baseSold h fs = baseOf h .sell fs := by
  unfold baseSold baseOf
  apply sum_map_congr; intro f _
  cases (h f.ptr).dir <;> simp

theorem fillsDiff_eq (h : Heap) {fs : List Fill} (hpos : ∀ f ∈ fs, 0 < f.amt ∧ 0 < f.price) :
    fillsDiff h fs = quotePaid h fs - quoteReceived h fs := by
  unfold fillsDiff quotePaid quoteReceived
  rw [← sum_map_sub]
  apply sum_map_congr; intro f hf
  have hp := hpos f hf
  have h0 : 0 ≤ f.price * f.amt := by have := hp.1; have := hp.2; positivity
  unfold fillDiff
  rw [quoteUp_eq h0, quoteDown_eq h0]
  cases (h f.ptr).dir <;> simp

/-! ### The book of live orders -/

theorem eligible_mem {h : Heap} {d : Dir} {ps : List Nat} {p : Nat} (hp : p ∈ eligible h d ps) :
    p ∈ ps ∧ (h p).dir = d := by
  unfold eligible at hp
  rw [List.mem_filter] at hp
  refine ⟨hp.1, ?_⟩
  have := hp.2
  simp at this
  exact this.1

theorem sideOk_of_ticksOk {inc : Bool} {h : Heap} {d : Dir} {ps : List Nat} {ts : List Tick} (hnd : ps.Nodup)
    (hl : ∀ p ∈ ps, Live (h p)) (hk : TicksOk inc h (eligible h d ps) ts) : SideOk h d ts := by
  have hperm := hk.perm
  have hmem : ∀ p ∈ ts.flatMap (·.orders), p ∈ ps ∧ (h p).dir = d := fun p hp => eligible_mem (hperm.mem_iff.1 hp)
  have hprices : ∀ t ∈ ts, ∀ p ∈ t.orders, (h p).price = t.price := by
    intro t ht p hp
    rw [hk.content t ht, List.mem_filter] at hp
    simpa using hp.2
  refine ⟨hperm.nodup_iff.2 (hnd.filter _), fun p hp => (live_iff _).1 (hl p (hmem p hp).1), fun p hp => (hmem p hp).2,
    hprices, ?_⟩
  intro t ht
  obtain ⟨p, hp⟩ := List.exists_mem_of_ne_nil _ (hk.nonempty t ht)
  rw [← hprices t ht p hp]
  exact (hl p (hmem p (List.mem_flatMap.2 ⟨t, ht, hp⟩)).1).price_pos

theorem book_sides {h : Heap} {ps : List Nat} (hnd : ps.Nodup) (hl : ∀ p ∈ ps, Live (h p)) :
    SideOk h .buy (newOrderBook h ps).buys ∧ SideOk h .sell (newOrderBook h ps).sells :=
  ⟨sideOk_of_ticksOk hnd hl (bookOk_new h ps).buys, sideOk_of_ticksOk hnd hl (bookOk_new h ps).sells⟩

theorem obMatch_book {h : Heap} {ps : List Nat} {last : Int} (hlast : 0 < last) (hnd : ps.Nodup)
    (hl : ∀ p ∈ ps, Live (h p)) :
    ∃ r, obMatch h (newOrderBook h ps) last = some r ∧ r.st.heap = applyFills h r.st.log ∧
      r.st.diff = fillsDiff h r.st.log ∧ Good h r.st.log ∧ (∀ f ∈ r.st.log, f.ptr ∈ ps) ∧
      (r.matched = true ↔ r.st.log ≠ []) ∧ (r.matched = true → ∃ f ∈ r.st.log, f.price = r.matchPrice) ∧
      (∀ f ∈ r.st.log, f.price = last ∨ ∃ p ∈ ps, f.price = (h p).price) ∧
      (∀ f ∈ r.st.log, ∃ p ∈ ps, (h p).dir = .sell ∧ (h p).price ≤ f.price) := by
  obtain ⟨sb, ss⟩ := book_sides hnd hl
  obtain ⟨r, fs, e1, e2, e3, e4, e5, e6, e7, e8⟩ := obMatch_spec hlast sb ss
  have hlog : r.st.log = fs := by rw [e2]; simp [MState.run]
  refine ⟨r, e1, ?_, ?_, ?_, ?_, ?_, ?_, ?_, ?_⟩
  · rw [hlog, e2]; rfl
  · rw [hlog, e2]; simp [MState.run]
  · rw [hlog]; exact e3
  · rw [hlog]
    intro f hf
    rcases e4 f hf with h1 | h1
    · exact (eligible_mem ((bookOk_new h ps).buys.perm.mem_iff.1 h1)).1
    · exact (eligible_mem ((bookOk_new h ps).sells.perm.mem_iff.1 h1)).1
  · rw [hlog]; exact e5
  · rw [hlog]; exact e6
  · rw [hlog]
    intro f hf
    rcases e7 f hf with h1 | ⟨t, ht | ht, h1⟩
    · exact Or.inl h1
    · obtain ⟨p, hp⟩ := List.exists_mem_of_ne_nil _ ((bookOk_new h ps).buys.nonempty t ht)
      have hm := eligible_mem ((bookOk_new h ps).buys.perm.mem_iff.1 (List.mem_flatMap.2 ⟨t, ht, hp⟩))
      exact Or.inr ⟨p, hm.1, by rw [h1, sb.prices t ht p hp]⟩
    · obtain ⟨p, hp⟩ := List.exists_mem_of_ne_nil _ ((bookOk_new h ps).sells.nonempty t ht)
      have hm := eligible_mem ((bookOk_new h ps).sells.perm.mem_iff.1 (List.mem_flatMap.2 ⟨t, ht, hp⟩))
      exact Or.inr ⟨p, hm.1, by rw [h1, ss.prices t ht p hp]⟩
  · rw [hlog]
    intro f hf
    obtain ⟨t, ht, h1⟩ := e8 f hf
    obtain ⟨p, hp⟩ := List.exists_mem_of_ne_nil _ ((bookOk_new h ps).sells.nonempty t ht)
    have hm := eligible_mem ((bookOk_new h ps).sells.perm.mem_iff.1 (List.mem_flatMap.2 ⟨t, ht, hp⟩))
    exact ⟨p, hm.1, ss.dirs p (List.mem_flatMap.2 ⟨t, ht, hp⟩), by rw [ss.prices t ht p hp]; exact h1⟩

theorem matchAtSinglePrice_book {h : Heap} {ps : List Nat} {price : Int} (hp : 0 < price) (hnd : ps.Nodup)
    (hl : ∀ p ∈ ps, Live (h p)) :
    ∃ st m, matchAtSinglePrice h (newOrderBook h ps) price = some (st, m) ∧ st.heap = applyFills h st.log ∧
      st.diff = fillsDiff h st.log ∧ Good h st.log ∧
      (∀ f ∈ st.log, f.price = price ∧ ∃ p ∈ ps, (h p).dir = .sell ∧ (h p).price ≤ price) := by
  obtain ⟨sb, ss⟩ := book_sides hnd hl
  rcases matchAtSinglePrice_spec hp sb ss with ⟨_, e⟩ | ⟨m, fb, fsl, hfm, _, e, i1, i2, _, _, _, hg, _⟩
  · exact ⟨_, _, e, rfl, by simp [fillsDiff], Good.nil _, by simp⟩
  · refine ⟨_, _, e, ?_, ?_, ?_, ?_⟩
    · simp [MState.run]
    · simp [MState.run]
    · simpa [MState.run] using hg
    · intro f hf
      have hf : f ∈ fb ++ fsl := by simpa [MState.run] using hf
      refine ⟨by
        rcases List.mem_append.1 hf with hf | hf
        · exact i1.price_eq f hf
        · exact i2.price_eq f hf, ?_⟩
      obtain ⟨ps', eps⟩ := buildSide_prefix true (newOrderBook h ps).sells price
      unfold findMatchableAmountAtSinglePrice at hfm
      simp only at hfm
      split at hfm
      · cases hfm
      · split at hfm
        · cases hfm
        · rename_i hne
          obtain ⟨t, ht⟩ := List.exists_mem_of_ne_nil _ hne
          have h1 := buildSide_limit ht
          simp only [if_true] at h1
          have ht : t ∈ (newOrderBook h ps).sells := by rw [eps]; exact List.mem_append_left _ ht
          obtain ⟨p, hp⟩ := List.exists_mem_of_ne_nil _ ((bookOk_new h ps).sells.nonempty t ht)
          have hm := eligible_mem ((bookOk_new h ps).sells.perm.mem_iff.1 (List.mem_flatMap.2 ⟨t, ht, hp⟩))
          exact ⟨p, hm.1, ss.dirs p (List.mem_flatMap.2 ⟨t, ht, hp⟩), by rw [ss.prices t ht p hp]; exact h1⟩

/-! ### Fuel of the pro-rata recursion -/

theorem distributeToOrders_fuel (price : Int) : ∀ (fuel : Nat) (st : MState) (ps : List Nat) (amt : Int),
    ps.length < fuel → distributeToOrders (fuel + 1) st ps amt price = distributeToOrders fuel st ps amt price := by
  intro fuel
  induction fuel with
  | zero => intro _ _ _ h; omega
  | succ n ih =>
    intro st ps amt hlen
    have hsl : (shares st.heap ps amt price).length = ps.length := by
      have h2 : ∀ (l : List (Nat × Int)) (r : Int), (secondShare st.heap price r l).length = l.length := by
        intro l
        induction l with
        | nil => intro r; simp [secondShare]
        | cons e l ih => intro r; obtain ⟨p, v⟩ := e; unfold secondShare; split <;> simp [ih]
      unfold shares; simp only; rw [h2]; simp
    conv_lhs => rw [distributeToOrders.eq_2]
    conv_rhs => rw [distributeToOrders.eq_2]
    split
    · rfl
    · simp only
      split
      · rename_i hlt
        split
        · apply ih
          rw [List.length_dropLast]; omega
        · apply ih
          rw [List.length_map]; omega
      · rfl

/-! ### Independence of the Go map's iteration order -/

theorem fillAll_perm {st : MState} {price : Int} {sh sh' : List (Nat × Int)} (hperm : sh'.Perm sh)
    (hnd : (sh.map (·.1)).Nodup) (hle : ∀ e ∈ sh, e.2 ≤ matchableAmount (st.heap e.1) price) :
    ∃ a b, fillAll st price sh = some a ∧ fillAll st price sh' = some b ∧ a.heap = b.heap ∧ a.diff = b.diff := by
  have hnd' : (sh'.map (·.1)).Nodup := (hperm.map _).nodup_iff.2 hnd
  have hle' : ∀ e ∈ sh', e.2 ≤ matchableAmount (st.heap e.1) price := fun e he => hle e (hperm.mem_iff.1 he)
  refine ⟨_, _, fillAll_eq st price sh hnd hle, fillAll_eq st price sh' hnd' hle', ?_, ?_⟩
  · -- heaps
    funext q
    show applyFills st.heap _ q = applyFills st.heap _ q
    have key : ∀ (l : List (Nat × Int)), (l.map (·.1)).Nodup → ∀ h : Heap,
        applyFills h (l.map (fun e => (⟨e.1, e.2, price⟩ : Fill))) q =
        match l.find? (fun e => e.1 == q) with | some e => filledOrder (h q) e.2 price | none => h q := by
      intro l
      induction l with
      | nil => intro _ h; simp [applyFills]
      | cons e l ih =>
        intro hn h
        rw [List.map_cons, List.nodup_cons] at hn
        rw [List.map_cons, applyFills_cons, ih hn.2]
        by_cases he : e.1 = q
        · have hnf : l.find? (fun e => e.1 == q) = none := by
            rw [List.find?_eq_none]
            intro x hx hc
            apply hn.1
            rw [he]
            have : x.1 = q := by simpa using hc
            rw [← this]; exact List.mem_map_of_mem hx
          rw [hnf]
          simp [he, applyFill]
        · have hc : (e.1 == q) = false := by simpa using he
          rw [List.find?_cons]
          simp only [hc]
          have ho : applyFill h ⟨e.1, e.2, price⟩ q = h q := by
            unfold applyFill; rw [if_neg (fun e' => he e'.symm)]
          rw [ho]
    rw [key sh hnd, key sh' hnd']
    have huniq : sh.find? (fun e => e.1 == q) = sh'.find? (fun e => e.1 == q) := by
      cases h1 : sh.find? (fun e => e.1 == q) with
      | none =>
        rw [List.find?_eq_none] at h1
        symm; rw [List.find?_eq_none]
        intro x hx; exact h1 x (hperm.mem_iff.1 hx)
      | some e =>
        have he := List.mem_of_find?_eq_some h1
        have hq := List.find?_some h1
        cases h2 : sh'.find? (fun e => e.1 == q) with
        | none =>
          rw [List.find?_eq_none] at h2
          exact absurd hq (h2 e (hperm.mem_iff.2 he))
        | some e' =>
          have he' := hperm.mem_iff.1 (List.mem_of_find?_eq_some h2)
          have hq' := List.find?_some h2
          have : e.1 = e'.1 := by
            have a : e.1 = q := by simpa using hq
            have b : e'.1 = q := by simpa using hq'
            omega
          rw [List.inj_on_of_nodup_map hnd he he' this]
    rw [huniq]
  · show st.diff + fillsDiff _ _ = st.diff + fillsDiff _ _
    unfold fillsDiff
    rw [sum_perm _ ((hperm.map _).symm)]

/-- With any iteration order of the map, the orders and the quote difference are the same. -/
theorem distributeToOrdersOrd_eq {ord : List (Nat × Int) → List (Nat × Int)} (hord : ∀ l, (ord l).Perm l) {price : Int}
    (hp : 0 < price) : ∀ (fuel : Nat) (st : MState) (ps : List Nat) (amt : Int), ps.Nodup → HeapOk st.heap ps → 0 ≤ amt →
    ∃ a b, distributeToOrders fuel st ps amt price = some a ∧ distributeToOrdersOrd ord fuel st ps amt price = some b ∧
      a.heap = b.heap ∧ a.diff = b.diff := by
  intro fuel
  induction fuel with
  | zero => intro st ps amt _ _ _; exact ⟨st, st, by simp [distributeToOrders], by simp [distributeToOrdersOrd], rfl, rfl⟩
  | succ n ih =>
    intro st ps amt hnd hk ha
    unfold distributeToOrders distributeToOrdersOrd
    simp only [divByZero_false hp hk, Bool.false_eq_true, if_false]
    obtain ⟨s1, s2, s3⟩ := shares_spec hp hk ha
    split
    · split
      · exact ih st ps.dropLast amt (hnd.sublist (List.dropLast_sublist _))
          (fun p hp' => hk p ((List.dropLast_sublist _).subset hp')) ha
      · have hsub : List.Sublist (((shares st.heap ps amt price).filter (countsMatched st.heap price)).map (·.1)) ps := by
          conv_rhs => rw [← s1]
          exact (List.filter_sublist).map _
        exact ih st _ amt (hnd.sublist hsub) (fun p hp' => hk p (hsub.subset hp')) ha
    · exact fillAll_perm (hord _) (by rw [s1]; exact hnd) (fun e he => (s2 e he).2)

/-! ### Proportional lower bound -/

theorem firstShare_mono {h : Heap} {t t' amt price : Int} {p : Nat} (hk : OrderOk (h p)) (ha : 0 ≤ amt)
    (ht' : 0 < t') (hle : t' ≤ t) (hp : 0 < price) :
    firstShare h t amt price p ≤ firstShare h t' amt price p := by
  have hA : 0 ≤ (h p).amount := by have := hk.open_nonneg; have := hk.open_le; omega
  have hm0 := matchable_nonneg hk hp
  have key : Dec.truncateInt (Dec.mulInt (Dec.quoTruncate (Dec.ofInt (h p).amount) (Dec.ofInt t)) amt) ≤
      Dec.truncateInt (Dec.mulInt (Dec.quoTruncate (Dec.ofInt (h p).amount) (Dec.ofInt t')) amt) := by
    unfold Dec.truncateInt Dec.mulInt Dec.quoTruncate Dec.ofInt
    have o := one_pos
    have q0 : ∀ t'' : Int, 0 < t'' → 0 ≤ (h p).amount * Dec.one * Dec.one / (t'' * Dec.one) := by
      intro t'' h1; apply Int.ediv_nonneg <;> positivity
    have n1 : 0 ≤ (h p).amount * Dec.one * Dec.one := by positivity
    rw [Int.tdiv_eq_ediv_of_nonneg n1, Int.tdiv_eq_ediv_of_nonneg n1,
      Int.tdiv_eq_ediv_of_nonneg (mul_nonneg (q0 t (by omega)) ha), Int.tdiv_eq_ediv_of_nonneg (mul_nonneg (q0 t' ht') ha)]
    apply Int.ediv_le_ediv o
    apply mul_le_mul_of_nonneg_right _ ha
    apply Int.ediv_le_ediv_of_nonneg_left' n1 (by positivity)
    exact mul_le_mul_of_nonneg_right hle (le_of_lt o)
  unfold firstShare
  simp only
  split
  · omega
  · split <;> split <;> omega
where
  Int.ediv_le_ediv_of_nonneg_left' {a b c : Int} (ha : 0 ≤ a) (hc : 0 < c) (hcb : c ≤ b) : a / b ≤ a / c := by
    have hb : 0 < b := by omega
    rw [Int.le_ediv_iff_mul_le hc]
    have h1 : 0 ≤ a / b := Int.ediv_nonneg ha (by omega)
    have h2 := Int.ediv_mul_le a (b := b) (by omega)
    have h3 : a / b * c ≤ a / b * b := mul_le_mul_of_nonneg_left hcb h1
    omega

theorem secondShare_ge {h : Heap} {price : Int} : ∀ (l : List (Nat × Int)) (rem : Int), 0 ≤ rem →
    (∀ e ∈ l, e.2 ≤ matchableAmount (h e.1) price) →
    ∀ p v, (p, v) ∈ l → ∃ v', (p, v') ∈ secondShare h price rem l ∧ v ≤ v' := by
  intro l
  induction l with
  | nil => simp
  | cons e l ih =>
    intro rem hr hle p v hm
    obtain ⟨q, w⟩ := e
    unfold secondShare
    have hw := hle (q, w) (by simp)
    simp only at hw
    split
    · exact ⟨v, hm, le_refl _⟩
    · rcases List.mem_cons.1 hm with h1 | h1
      · simp only [Prod.mk.injEq] at h1
        obtain ⟨rfl, rfl⟩ := h1
        exact ⟨_, List.mem_cons_self, by omega⟩
      · obtain ⟨v', h2, h3⟩ := ih (rem - min rem (matchableAmount (h q) price - w)) (by omega)
          (fun e he => hle e (List.mem_cons_of_mem _ he)) p v h1
        exact ⟨v', List.mem_cons_of_mem _ h2, h3⟩

theorem shares_ge {h : Heap} {ps : List Nat} {amt price : Int} (hp : 0 < price) (hk : HeapOk h ps) (ha : 0 ≤ amt)
    {p : Nat} (hpm : p ∈ ps) : ∃ v, (p, v) ∈ shares h ps amt price ∧ firstShare h (totalAmount h ps) amt price p ≤ v := by
  unfold shares
  simp only
  apply secondShare_ge
  · rw [foldl_add_eq]
    have := firstShare_sum hp hk ha
    rw [List.map_map]
    have e : ((fun e : Nat × Int => e.2) ∘ fun p => (p, firstShare h (totalAmount h ps) amt price p)) =
      fun p => firstShare h (totalAmount h ps) amt price p := rfl
    rw [e]; omega
  · intro e he
    rw [List.mem_map] at he
    obtain ⟨q, hq, rfl⟩ := he
    exact (firstShare_bounds hp (hk q hq)).2
  · exact List.mem_map.2 ⟨p, hpm, rfl⟩

/-- Without dust every order receives at least its truncated proportional share. -/
theorem distributeToOrders_ge {price : Int} (hp : 0 < price) : ∀ (fuel : Nat) (st : MState) (ps : List Nat)
    (amt : Int), ps.length < fuel → ps.Nodup → HeapOk st.heap ps → 0 < amt → NoDust st.heap ps price → 
    amt ≤ totalMatchable st.heap ps price →
    ∃ fs, distributeToOrders fuel st ps amt price = some (st.run fs) ∧
      ∀ p ∈ ps, 0 < firstShare st.heap (totalAmount st.heap ps) amt price p →
        ∃ f ∈ fs, f.ptr = p ∧ firstShare st.heap (totalAmount st.heap ps) amt price p ≤ f.amt := by
  intro fuel
  induction fuel with
  | zero => intro st ps amt h; omega
  | succ n ih =>
    intro st ps amt hlen hnd hk ha hn hle
    unfold distributeToOrders
    rw [if_neg (by rw [divByZero_false hp hk]; simp)]
    simp only
    obtain ⟨s1, s2, s3⟩ := shares_spec hp hk (le_of_lt ha)
    have hge := fun p hpm => shares_ge (p := p) hp hk (le_of_lt ha) hpm
    set sh := shares st.heap ps amt price with hsh
    have hshlen : sh.length = ps.length := by rw [← s1]; simp
    have hmem : ∀ e ∈ sh, e.1 ∈ ps := fun e he => by rw [← s1]; exact List.mem_map_of_mem he
    have hcm : ∀ e ∈ sh, countsMatched st.heap price e = decide (0 < e.2) :=
      fun e he => countsMatched_nodust hn (hmem e he) (s2 e he).1
    split
    · rename_i hlt
      split
      · rename_i hem
        exfalso
        have hz : ∀ e ∈ sh, e.2 = 0 := by
          intro e he
          by_contra hne
          have : e ∈ sh.filter (countsMatched st.heap price) := by
            rw [List.mem_filter]
            refine ⟨he, ?_⟩
            rw [hcm e he]
            have := (s2 e he).1
            simp; omega
          rw [List.isEmpty_iff] at hem
          rw [hem] at this; cases this
        have : (sh.map (·.2)).sum = 0 := by rw [sum_map_congr hz]; simp
        omega
      · rename_i hem
        set ms := (sh.filter (countsMatched st.heap price)).map (·.1) with hms
        have hsub : List.Sublist ms ps := by
          rw [hms, ← s1]; exact (List.filter_sublist).map _
        have hmslen : ms.length < ps.length := by rw [hms, List.length_map]; omega
        have h1 : ((sh.filter (countsMatched st.heap price)).map (·.2)).sum = (sh.map (·.2)).sum := by
          apply sum_filter_eq
          intro e he hf
          rw [hcm e he] at hf
          have := (s2 e he).1
          simp at hf; omega
        have h2 : ((sh.filter (countsMatched st.heap price)).map (·.2)).sum ≤ totalMatchable st.heap ms price := by
          rw [totalMatchable_eq, hms, List.map_map]
          apply sum_map_le
          intro e he
          exact (s2 e (List.mem_of_mem_filter he)).2
        obtain ⟨fs, e1, e2⟩ := ih st ms amt (by omega) (hnd.sublist hsub)
          (fun p hp' => hk p (hsub.subset hp')) ha (hn.mono (fun q hq => hsub.subset hq)) (by omega)
        refine ⟨fs, e1, ?_⟩
        intro p hpm hpos
        obtain ⟨v, hv1, hv2⟩ := hge p hpm
        have hpms : p ∈ ms := by
          rw [hms]
          refine List.mem_map.2 ⟨(p, v), ?_, rfl⟩
          rw [List.mem_filter]
          refine ⟨hv1, ?_⟩
          rw [hcm _ hv1]; simp; omega
        have hamt : ∀ q ∈ ps, 0 ≤ (st.heap q).amount := fun q hq => by
          have := (hk q hq).open_nonneg; have := (hk q hq).open_le; omega
        have htle : totalAmount st.heap ms ≤ totalAmount st.heap ps := by
          rw [totalAmount_eq, totalAmount_eq]
          exact sum_sublist_le _ hsub hamt
        have htpos : 0 < totalAmount st.heap ms := by
          rw [totalAmount_eq]
          have h3 := sum_sublist_le (fun i => (st.heap i).amount) (List.singleton_sublist.2 hpms)
            (fun q hq => hamt q (hsub.subset hq))
          have h4 := matchable_le_open (hk p hpm) hp
          have h5 := (hk p hpm).open_le
          have h6 := (firstShare_bounds (h := st.heap) (total := totalAmount st.heap ps) (amt := amt) hp (hk p hpm)).2
          simp at h3; omega
        have hmono := firstShare_mono (amt := amt) (hk p hpm) (le_of_lt ha) htpos htle hp
        obtain ⟨f, hf, g1, g2⟩ := e2 p hpms (by omega)
        exact ⟨f, hf, g1, by omega⟩
    · rename_i hge'
      refine ⟨_, fillAll_eq st price sh (by rw [s1]; exact hnd) (fun e he => (s2 e he).2), ?_⟩
      intro p hpm hpos
      obtain ⟨v, hv1, hv2⟩ := hge p hpm
      exact ⟨⟨p, v, price⟩, List.mem_map.2 ⟨(p, v), hv1, rfl⟩, rfl, hv2⟩

end Verif.Amm

import Verif.Proofs.Fill
import Verif.Proofs.Group
/-! Distribution of an amount over orders, groups and ticks (x/dex/amm/match.go:184-199, 301-397). -/
namespace Verif.Amm
open Verif

/-- The proportional shares of positive-amount orders add up to at most the distributed amount. -/
theorem firstShare_sum {h : Heap} {ps : List Nat} {amt price : Int} (hp : 0 < price) (hk : HeapOk h ps)
    (ha : 0 ≤ amt) : (ps.map (fun p => firstShare h (totalAmount h ps) amt price p)).sum ≤ amt := by
  have hamt : ∀ p ∈ ps, 0 ≤ (h p).amount := fun p hp' => by
    have := (hk p hp').open_nonneg; have := (hk p hp').open_le; omega
  have htot : 0 ≤ totalAmount h ps := by rw [totalAmount_eq]; exact sum_map_nonneg _ _ hamt
  rcases Int.lt_or_eq_of_le htot with ht | ht
  · -- share_i * one * total ≤ amount_i * one * amt
    have key : ∀ p ∈ ps, firstShare h (totalAmount h ps) amt price p * totalAmount h ps ≤ (h p).amount * amt := by
      intro p hp'
      have h0 := hamt p hp'
      unfold firstShare
      simp only
      split
      · simp; positivity
      · split
        · have h1 : 0 ≤ Dec.ofInt (h p).amount := mul_nonneg h0 (le_of_lt one_pos)
          have h2 : 0 < Dec.ofInt (totalAmount h ps) := mul_pos ht one_pos
          have hq : Dec.quoTruncate (Dec.ofInt (h p).amount) (Dec.ofInt (totalAmount h ps))
              = (h p).amount * Dec.one / totalAmount h ps := by
            unfold Dec.quoTruncate
            rw [Int.tdiv_eq_ediv_of_nonneg (mul_nonneg h1 (le_of_lt one_pos))]
            unfold Dec.ofInt
            rw [show (h p).amount * Dec.one * Dec.one = ((h p).amount * Dec.one) * Dec.one by ring]
            rw [Int.mul_ediv_mul_of_pos_left _ _ one_pos]
          rw [hq]
          set q := (h p).amount * Dec.one / totalAmount h ps with hqd
          have hq0 : 0 ≤ q := Int.ediv_nonneg (mul_nonneg h0 (le_of_lt one_pos)) (le_of_lt ht)
          have hq1 : q * totalAmount h ps ≤ (h p).amount * Dec.one := Int.ediv_mul_le _ (by omega)
          have hqa : 0 ≤ q * amt := mul_nonneg hq0 ha
          have ht2 : Dec.truncateInt (Dec.mulInt q amt) * Dec.one ≤ q * amt := by
            unfold Dec.truncateInt Dec.mulInt
            rw [Int.tdiv_eq_ediv_of_nonneg hqa]
            exact Int.ediv_mul_le _ (by decide)
          set s := Dec.truncateInt (Dec.mulInt q amt)
          have h3 : s * totalAmount h ps * Dec.one ≤ (h p).amount * amt * Dec.one := by
            calc s * totalAmount h ps * Dec.one = (s * Dec.one) * totalAmount h ps := by ring
              _ ≤ (q * amt) * totalAmount h ps := mul_le_mul_of_nonneg_right ht2 (le_of_lt ht)
              _ = (q * totalAmount h ps) * amt := by ring
              _ ≤ ((h p).amount * Dec.one) * amt := mul_le_mul_of_nonneg_right hq1 ha
              _ = _ := by ring
          have h4 := le_of_mul_le_mul_right h3 one_pos
          refine le_trans (mul_le_mul_of_nonneg_right (min_le_right _ _) (le_of_lt ht)) h4
        · simp; positivity
    have h5 := sum_map_le _ _ ps key
    rw [sum_map_mul, sum_map_mul, ← totalAmount_eq] at h5
    have : (ps.map (fun p => firstShare h (totalAmount h ps) amt price p)).sum * totalAmount h ps ≤ amt * totalAmount h ps := by
      linarith
    exact le_of_mul_le_mul_right this ht
  · have hz : ∀ p ∈ ps, firstShare h (totalAmount h ps) amt price p = 0 := by
      intro p hp'
      have hle : (h p).amount ≤ 0 := by
        rw [ht, totalAmount_eq]
        have := sum_sublist_le (fun i => (h i).amount) (List.singleton_sublist.2 hp') hamt
        simpa using this
      have h1 := matchable_le_open (hk p hp') hp
      have h2 := matchable_nonneg (hk p hp') hp
      have h3 := (hk p hp').open_le
      unfold firstShare
      simp only
      rw [if_pos (by omega)]
    rw [sum_map_congr hz]; simpa using ha

theorem firstShare_bounds {h : Heap} {total amt price : Int} {p : Nat} (hp : 0 < price) (hk : OrderOk (h p)) :
    0 ≤ firstShare h total amt price p ∧ firstShare h total amt price p ≤ matchableAmount (h p) price := by
  have := matchable_nonneg hk hp
  unfold firstShare
  simp only
  split
  · omega
  · split
    · exact ⟨by omega, min_le_left _ _⟩
    · omega

/-- Effect of the second loop. -/
theorem secondShare_spec {h : Heap} {price : Int} : ∀ (l : List (Nat × Int)) (rem : Int), 0 ≤ rem →
    (∀ e ∈ l, 0 ≤ e.2 ∧ e.2 ≤ matchableAmount (h e.1) price) →
    (secondShare h price rem l).map (·.1) = l.map (·.1) ∧
    (∀ e ∈ secondShare h price rem l, 0 ≤ e.2 ∧ e.2 ≤ matchableAmount (h e.1) price) ∧
    ((secondShare h price rem l).map (·.2)).sum =
      (l.map (·.2)).sum + min rem ((l.map (fun e => matchableAmount (h e.1) price - e.2)).sum) := by
  intro l
  induction l with
  | nil => intro rem hr _; simp [secondShare]; omega
  | cons e l ih =>
    intro rem hr hb
    obtain ⟨p, prev⟩ := e
    have hb0 := hb (p, prev) (by simp)
    simp only at hb0
    have hb' : ∀ e ∈ l, 0 ≤ e.2 ∧ e.2 ≤ matchableAmount (h e.1) price := fun e he => hb e (by simp [he])
    have hnn : 0 ≤ (l.map (fun e => matchableAmount (h e.1) price - e.2)).sum :=
      sum_map_nonneg _ _ (fun e he => by have := hb' e he; omega)
    unfold secondShare
    split
    · rename_i h0
      subst h0
      refine ⟨rfl, hb, ?_⟩
      simp only [List.map_cons, List.sum_cons]
      omega
    · set m := min rem (matchableAmount (h p) price - prev) with hm
      obtain ⟨i1, i2, i3⟩ := ih (rem - m) (by omega) hb'
      refine ⟨by simp [i1], ?_, ?_⟩
      · intro e he
        rcases List.mem_cons.1 he with rfl | he
        · simp only; omega
        · exact i2 e he
      · simp only [List.map_cons, List.sum_cons, i3]
        omega

/-- The map computed by the two loops. -/
theorem shares_spec {h : Heap} {ps : List Nat} {amt price : Int} (hp : 0 < price) (hk : HeapOk h ps) (ha : 0 ≤ amt) :
    (shares h ps amt price).map (·.1) = ps ∧
    (∀ e ∈ shares h ps amt price, 0 ≤ e.2 ∧ e.2 ≤ matchableAmount (h e.1) price) ∧
    ((shares h ps amt price).map (·.2)).sum = min amt (totalMatchable h ps price) := by
  unfold shares
  simp only
  set first := ps.map (fun p => (p, firstShare h (totalAmount h ps) amt price p)) with hf
  have hsum : first.foldl (fun a e => a + e.2) 0 = (first.map (·.2)).sum := by
    rw [foldl_add_eq (fun e : Nat × Int => e.2)]; simp
  have hfs : (first.map (·.2)).sum ≤ amt := by
    rw [hf, List.map_map]; exact firstShare_sum hp hk ha
  have hb : ∀ e ∈ first, 0 ≤ e.2 ∧ e.2 ≤ matchableAmount (h e.1) price := by
    intro e he
    obtain ⟨p, hp', rfl⟩ := List.mem_map.1 he
    exact firstShare_bounds hp (hk p hp')
  rw [hsum]
  obtain ⟨s1, s2, s3⟩ := secondShare_spec first (amt - (first.map (·.2)).sum) (by omega) hb
  have hptr : first.map (·.1) = ps := by rw [hf, List.map_map]; simp [Function.comp_def]
  refine ⟨by rw [s1, hptr], s2, ?_⟩
  rw [s3, sum_map_sub (fun e : Nat × Int => matchableAmount (h e.1) price) (fun e => e.2)]
  have : (first.map (fun e => matchableAmount (h e.1) price)).sum = totalMatchable h ps price := by
    rw [totalMatchable_eq, hf, List.map_map]; rfl
  rw [this]; omega

/-- No sell share can be dropped as dust: all orders buy, or the price is at least one. -/
def NoDust (h : Heap) (ps : List Nat) (price : Int) : Prop := (∀ p ∈ ps, (h p).dir = .buy) ∨ Dec.one ≤ price

theorem NoDust.mono {h : Heap} {ps qs : List Nat} {price : Int} (hn : NoDust h ps price) (hs : ∀ q ∈ qs, q ∈ ps) :
    NoDust h qs price := by
  rcases hn with h1 | h1
  · exact Or.inl (fun q hq => h1 q (hs q hq))
  · exact Or.inr h1

theorem quoteFloor_pos_of_one_le {price a : Int} (hp : Dec.one ≤ price) (ha : 0 < a) : 0 < quoteFloor price a := by
  have hp0 : 0 < price := lt_of_lt_of_le one_pos hp
  rw [quoteFloor_eq (by positivity)]
  have h1 : Dec.one * 1 ≤ price * a := mul_le_mul hp ha (by omega) (by omega)
  exact Int.ediv_pos_of_pos_of_dvd_or_le h1
where
  Int.ediv_pos_of_pos_of_dvd_or_le {x : Int} (h : Dec.one * 1 ≤ x) : 0 < x / Dec.one := by
    rw [one_eq] at *; omega

theorem countsMatched_nodust {h : Heap} {ps : List Nat} {price : Int} {e : Nat × Int} (hn : NoDust h ps price)
    (he : e.1 ∈ ps) (h0 : 0 ≤ e.2) : countsMatched h price e = decide (0 < e.2) := by
  unfold countsMatched
  by_cases hz : e.2 = 0
  · simp [hz]
  · have hpos : 0 < e.2 := by omega
    rcases hn with h1 | h1
    · simp [h1 _ he, hz, hpos]
    · simp [quoteFloor_pos_of_one_le h1 hpos, hz, hpos]

theorem divByZero_false {h : Heap} {ps : List Nat} {price : Int} (hp : 0 < price) (hk : HeapOk h ps) :
    divByZero h ps price = false := by
  have hamt : ∀ p ∈ ps, 0 ≤ (h p).amount := fun p hp' => by
    have := (hk p hp').open_nonneg; have := (hk p hp').open_le; omega
  unfold divByZero
  by_contra hc
  simp only [Bool.not_eq_false, Bool.and_eq_true, decide_eq_true_eq, List.any_eq_true] at hc
  obtain ⟨ht, p, hp', hm⟩ := hc
  have hle : (h p).amount ≤ 0 := by
    rw [totalAmount_eq] at ht
    have := sum_sublist_le (fun i => (h i).amount) (List.singleton_sublist.2 hp') hamt
    simp at this; omega
  have h1 := matchable_le_open (hk p hp') hp
  have h2 := matchable_nonneg (hk p hp') hp
  have h3 := (hk p hp').open_le
  simp at hm; omega

/-- `DistributeOrderAmountToOrders`: never aborts; fills each order at most once, within its matchable amount, in
total at most the amount, and exactly the amount when there is no dust and the orders can absorb it. -/
theorem distributeToOrders_spec {price : Int} (hp : 0 < price) : ∀ (fuel : Nat) (st : MState) (ps : List Nat)
    (amt : Int), ps.length < fuel → ps.Nodup → HeapOk st.heap ps → 0 ≤ amt →
    ∃ fs, distributeToOrders fuel st ps amt price = some (st.run fs) ∧ Indep st.heap price ps fs ∧ amtSum fs ≤ amt ∧
      (0 < amt → amt ≤ totalMatchable st.heap ps price → NoDust st.heap ps price → amtSum fs = amt) := by
  intro fuel
  induction fuel with
  | zero => intro st ps amt h; omega
  | succ n ih =>
    intro st ps amt hlen hnd hk ha
    unfold distributeToOrders
    rw [if_neg (by rw [divByZero_false hp hk]; simp)]
    simp only
    obtain ⟨s1, s2, s3⟩ := shares_spec hp hk ha
    set sh := shares st.heap ps amt price with hsh
    have hshlen : sh.length = ps.length := by rw [← s1]; simp
    have hmem : ∀ e ∈ sh, e.1 ∈ ps := fun e he => by rw [← s1]; exact List.mem_map_of_mem he
    split
    · rename_i hlt
      split
      · rename_i hem
        -- nothing matched: drop the last order
        obtain ⟨fs, e1, e2, e3, e4⟩ := ih st ps.dropLast amt (by rw [List.length_dropLast]; omega)
          (hnd.sublist (List.dropLast_sublist _)) (fun p hp' => hk p ((List.dropLast_sublist _).subset hp')) ha
        refine ⟨fs, e1, ⟨e2.nodup, fun f hf => (List.dropLast_sublist _).subset (e2.sub f hf), e2.price_eq, e2.pos, e2.le⟩, e3, ?_⟩
        intro hpos hle hn
        exfalso
        have hz : ∀ e ∈ sh, e.2 = 0 := by
          intro e he
          by_contra hne
          have : e ∈ sh.filter (countsMatched st.heap price) := by
            rw [List.mem_filter]
            refine ⟨he, ?_⟩
            rw [countsMatched_nodust hn (hmem e he) (s2 e he).1]
            have := (s2 e he).1
            simp; omega
          rw [List.isEmpty_iff] at hem
          rw [hem] at this; cases this
        have : (sh.map (·.2)).sum = 0 := by rw [sum_map_congr hz]; simp
        omega
      · rename_i hem
        set ms := (sh.filter (countsMatched st.heap price)).map (·.1) with hms
        have hsub : List.Sublist ms ps := by
          rw [hms, ← s1]; exact (List.filter_sublist).map _
        have hmslen : ms.length < ps.length := by rw [hms, List.length_map]; omega
        obtain ⟨fs, e1, e2, e3, e4⟩ := ih st ms amt (by omega) (hnd.sublist hsub)
          (fun p hp' => hk p (hsub.subset hp')) ha
        refine ⟨fs, e1, ⟨e2.nodup, fun f hf => hsub.subset (e2.sub f hf), e2.price_eq, e2.pos, e2.le⟩, e3, ?_⟩
        intro hpos hle hn
        apply e4 hpos _ (hn.mono (fun q hq => hsub.subset hq))
        -- the matched orders carry the whole amount
        have h1 : ((sh.filter (countsMatched st.heap price)).map (·.2)).sum = (sh.map (·.2)).sum := by
          apply sum_filter_eq
          intro e he hf
          rw [countsMatched_nodust hn (hmem e he) (s2 e he).1] at hf
          have := (s2 e he).1
          simp at hf; omega
        have h2 : ((sh.filter (countsMatched st.heap price)).map (·.2)).sum ≤ totalMatchable st.heap ms price := by
          rw [totalMatchable_eq, hms, List.map_map]
          apply sum_map_le
          intro e he
          exact (s2 e (List.mem_of_mem_filter he)).2
        omega
    · rename_i hge
      have hall : ∀ e ∈ sh, countsMatched st.heap price e = true := by
        have h1 : (sh.filter (countsMatched st.heap price)).length = sh.length :=
          le_antisymm (List.length_filter_le _ _) (by omega)
        exact List.length_filter_eq_length_iff.1 h1
      have hpos : ∀ e ∈ sh, 0 < e.2 := by
        intro e he
        have h1 := hall e he
        unfold countsMatched at h1
        have h2 := (s2 e he).1
        simp at h1; omega
      refine ⟨sh.map (fun e => ⟨e.1, e.2, price⟩), ?_, ?_, ?_, ?_⟩
      · exact fillAll_eq st price sh (by rw [s1]; exact hnd) (fun e he => (s2 e he).2)
      · refine ⟨?_, ?_, ?_, ?_, ?_⟩
        · rw [List.map_map]
          show (sh.map (·.1)).Nodup
          rw [s1]; exact hnd
        all_goals
          intro f hf
          obtain ⟨e, he, rfl⟩ := List.mem_map.1 hf
        · exact hmem e he
        · rfl
        · exact hpos e he
        · exact (s2 e he).2
      · unfold amtSum
        rw [List.map_map]
        show (sh.map (·.2)).sum ≤ amt
        omega
      · intro _ hle _
        unfold amtSum
        rw [List.map_map]
        show (sh.map (·.2)).sum = amt
        omega

theorem totalMatchable_perm {h : Heap} {ps qs : List Nat} {price : Int} (hpq : ps.Perm qs) :
    totalMatchable h ps price = totalMatchable h qs price := by
  rw [totalMatchable_eq, totalMatchable_eq]; exact sum_perm _ hpq

theorem totalMatchable_nonneg {h : Heap} {ps : List Nat} {price : Int} (hp : 0 < price) (hk : HeapOk h ps) :
    0 ≤ totalMatchable h ps price := by
  rw [totalMatchable_eq]; exact sum_map_nonneg _ _ (fun p hp' => matchable_nonneg (hk p hp') hp)

theorem totalMatchable_congr {h h' : Heap} {ps : List Nat} {price : Int} (he : ∀ p ∈ ps, h' p = h p) :
    totalMatchable h' ps price = totalMatchable h ps price := by
  rw [totalMatchable_eq, totalMatchable_eq]
  apply sum_map_congr; intro p hp; rw [he p hp]

theorem totalMatchable_append (h : Heap) (ps qs : List Nat) (price : Int) :
    totalMatchable h (ps ++ qs) price = totalMatchable h ps price + totalMatchable h qs price := by
  rw [totalMatchable_eq, totalMatchable_eq, totalMatchable_eq, List.map_append, List.sum_append]

theorem NoDust.congr {h h' : Heap} {ps : List Nat} {price : Int} (hn : NoDust h ps price)
    (he : ∀ p, (h' p).dir = (h p).dir) : NoDust h' ps price := by
  rcases hn with h1 | h1
  · exact Or.inl (fun q hq => by rw [he]; exact h1 q hq)
  · exact Or.inr h1

/-- Loop over groups.  `exh`: if an order of a later group is filled, all orders of the earlier groups are exhausted. -/
theorem distributeToGroups_spec {price : Int} (hp : 0 < price) : ∀ (gs : List OrderGroup) (st : MState) (rem : Int),
    (gs.flatMap (·.orders)).Nodup → HeapOk st.heap (gs.flatMap (·.orders)) → 0 ≤ rem →
    ∃ fs, distributeToGroups st gs rem price = some (st.run fs) ∧ Indep st.heap price (gs.flatMap (·.orders)) fs ∧
      (rem ≤ totalMatchable st.heap (gs.flatMap (·.orders)) price → amtSum fs ≤ rem) ∧
      (0 < rem → rem ≤ totalMatchable st.heap (gs.flatMap (·.orders)) price →
        NoDust st.heap (gs.flatMap (·.orders)) price → amtSum fs = rem) ∧
      (totalMatchable st.heap (gs.flatMap (·.orders)) price ≤ rem →
        amtSum fs = totalMatchable st.heap (gs.flatMap (·.orders)) price) ∧
      (∀ (pre : List OrderGroup) (g : OrderGroup) (post : List OrderGroup), gs = pre ++ g :: post →
        ∀ f ∈ fs, f.ptr ∈ post.flatMap (·.orders) →
        ∀ q ∈ g.orders, matchableAmount (applyFills st.heap fs q) price = 0) := by
  intro gs
  induction gs with
  | nil =>
    intro st rem _ _ hr
    refine ⟨[], by simp [distributeToGroups], Indep.nil _ _ _, by simp [amtSum]; omega, ?_, by simp [totalMatchable, amtSum], by simp⟩
    intro h1 h2; simp [totalMatchable] at h2; omega
  | cons g gs ih =>
    intro st rem hnd hk hr
    rw [List.flatMap_cons] at hnd hk
    rw [List.nodup_append] at hnd
    obtain ⟨nd1, nd2, nd3⟩ := hnd
    have hk1 : HeapOk st.heap g.orders := fun p hp' => hk p (List.mem_append_left _ hp')
    have hk2 : HeapOk st.heap (gs.flatMap (·.orders)) := fun p hp' => hk p (List.mem_append_right _ hp')
    have hdis : ∀ p ∈ g.orders, p ∉ gs.flatMap (·.orders) := fun p h1 h2 => nd3 p h1 p h2 rfl
    have ht1 := totalMatchable_nonneg hp hk1
    have ht2 := totalMatchable_nonneg hp hk2
    simp only [List.flatMap_cons, totalMatchable_append]
    unfold distributeToGroups
    simp only
    split
    · -- nothing matchable in this group
      rename_i h0
      obtain ⟨fs, e1, e2, e3, e4, e5, e6⟩ := ih st rem nd2 hk2 hr
      refine ⟨fs, e1, ⟨e2.nodup, fun f hf => List.mem_append_right _ (e2.sub f hf), e2.price_eq, e2.pos, e2.le⟩,
        fun h1 => e3 (by omega), fun h1 h2 h3 => e4 h1 (by omega) (h3.mono (fun q hq => List.mem_append_right _ hq)),
        fun h1 => by rw [e5 (by omega)]; omega, ?_⟩
      intro pre g' post heq f hf hfp q hq
      cases pre with
      | nil =>
        simp only [List.nil_append, List.cons.injEq] at heq
        obtain ⟨rfl, rfl⟩ := heq
        rw [applyFills_other]
        · have h1 := matchable_nonneg (hk1 q hq) hp
          have h2 : matchableAmount (st.heap q) price ≤ totalMatchable st.heap g.orders price := by
            rw [totalMatchable_eq]
            have := sum_sublist_le (fun i => matchableAmount (st.heap i) price) (List.singleton_sublist.2 hq)
              (fun x hx => matchable_nonneg (hk1 x hx) hp)
            simpa using this
          omega
        · intro f' hf' e
          exact hdis q hq (e ▸ e2.sub f' hf')
      | cons p0 pre =>
        simp only [List.cons_append, List.cons.injEq] at heq
        exact e6 pre g' post heq.2 f hf hfp q hq
    · split
      · -- the whole group is filled
        rename_i h0 hle
        rw [fulfillOrders_eq st g.orders price nd1]
        simp only
        set ff := fulfillFills st.heap g.orders price with hff
        have hin := fulfillFills_indep st.heap g.orders price nd1
        rw [← hff] at hin
        have hsum := fulfillFills_sum hp hk1
        rw [← hff] at hsum
        have hexh := fulfillFills_exhaust hp hk1 nd1
        rw [← hff] at hexh
        split
        · rename_i hz
          refine ⟨ff, rfl, ⟨hin.nodup, fun f hf => List.mem_append_left _ (hin.sub f hf), hin.price_eq, hin.pos, hin.le⟩,
            fun _ => by omega, fun _ _ _ => by omega, fun _ => by omega, ?_⟩
          intro pre g' post heq f hf hfp q hq
          exfalso
          have hfg := hin.sub f hf
          have : f.ptr ∈ gs.flatMap (·.orders) := by
            cases pre with
            | nil =>
              simp only [List.nil_append, List.cons.injEq] at heq
              rw [heq.2]; exact hfp
            | cons p0 pre =>
              simp only [List.cons_append, List.cons.injEq] at heq
              rw [heq.2, List.flatMap_append, List.flatMap_cons]
              exact List.mem_append_right _ (List.mem_append_right _ hfp)
          exact hdis _ hfg this
        · rename_i hz
          have hk2' : HeapOk (st.run ff).heap (gs.flatMap (·.orders)) := hin.heapOk hp hk2
          have hoth : ∀ p ∈ gs.flatMap (·.orders), (st.run ff).heap p = st.heap p := by
            intro p hp'
            apply applyFills_other
            intro f hf e
            exact hdis _ (hin.sub f hf) (e ▸ hp')
          obtain ⟨fs, e1, e2, e3, e4, e5, e6⟩ := ih (st.run ff) (rem - totalMatchable st.heap g.orders price) nd2 hk2' (by omega)
          rw [totalMatchable_congr hoth] at e3 e4 e5
          refine ⟨ff ++ fs, by rw [e1, run_append], ?_, ?_, ?_, ?_, ?_⟩
          · exact Indep.append hin e2 hdis (fun p hp' => List.mem_append_left _ hp')
              (fun p hp' => List.mem_append_right _ hp')
          · intro h1; rw [amtSum_append]; have := e3 (by omega); omega
          · intro h1 h2 h3
            rw [amtSum_append, e4 (by omega) (by omega)
              ((h3.mono (fun q hq => List.mem_append_right _ hq)).congr (fun p => applyFills_dir _ _ _))]
            omega
          · intro h1; rw [amtSum_append, e5 (by omega)]; omega
          · intro pre g' post heq f hf hfp q hq
            rw [applyFills_append]
            cases pre with
            | nil =>
              simp only [List.nil_append, List.cons.injEq] at heq
              obtain ⟨rfl, rfl⟩ := heq
              rw [applyFills_other]
              · exact hexh q hq
              · intro f' hf' e
                exact hdis q hq (e ▸ e2.sub f' hf')
            | cons p0 pre =>
              simp only [List.cons_append, List.cons.injEq] at heq
              rcases List.mem_append.1 hf with hf' | hf'
              · exfalso
                have hfg := hin.sub f hf'
                have : f.ptr ∈ gs.flatMap (·.orders) := by
                  rw [heq.2, List.flatMap_append, List.flatMap_cons]
                  exact List.mem_append_right _ (List.mem_append_right _ hfp)
                exact hdis _ hfg this
              · exact e6 pre g' post heq.2 f hf' hfp q hq
      · -- partial fill of this group
        rename_i h0 hlt
        have hperm := sort_perm st.heap g.orders
        have hlen : (sortOrders st.heap g.orders).length < g.orders.length + 1 := by rw [hperm.length_eq]; omega
        obtain ⟨fs, e1, e2, e3, e4⟩ := distributeToOrders_spec hp (g.orders.length + 1) st (sortOrders st.heap g.orders) rem
          hlen (hperm.nodup_iff.2 nd1) (fun p hp' => hk1 p (hperm.mem_iff.1 hp')) hr
        rw [totalMatchable_perm hperm] at e4
        refine ⟨fs, e1, ⟨e2.nodup, fun f hf => List.mem_append_left _ (hperm.mem_iff.1 (e2.sub f hf)), e2.price_eq, e2.pos, e2.le⟩,
          fun _ => e3, fun h1 h2 h3 => e4 h1 (by omega) (h3.mono (fun q hq => List.mem_append_left _ (hperm.mem_iff.1 hq))),
          fun h1 => by omega, ?_⟩
        intro pre g' post heq f hf hfp q hq
        exfalso
        have hfg := hperm.mem_iff.1 (e2.sub f hf)
        have : f.ptr ∈ gs.flatMap (·.orders) := by
          cases pre with
          | nil =>
            simp only [List.nil_append, List.cons.injEq] at heq
            rw [heq.2]; exact hfp
          | cons p0 pre =>
            simp only [List.cons_append, List.cons.injEq] at heq
            rw [heq.2, List.flatMap_append, List.flatMap_cons]
            exact List.mem_append_right _ (List.mem_append_right _ hfp)
        exact hdis _ hfg this

/-- `DistributeOrderAmountToTick`. -/
theorem distributeToTick_spec {price : Int} (hp : 0 < price) (st : MState) (t : Tick) (amt : Int)
    (hnd : t.orders.Nodup) (hk : HeapOk st.heap t.orders) (ha : 0 ≤ amt)
    (hle : amt ≤ totalMatchable st.heap t.orders price) :
    ∃ fs, distributeToTick st t amt price = some (st.run fs) ∧ Indep st.heap price t.orders fs ∧ amtSum fs ≤ amt ∧
      (0 < amt → NoDust st.heap t.orders price → amtSum fs = amt) ∧
      (totalMatchable st.heap t.orders price = amt → amtSum fs = amt) ∧
      (∀ f ∈ fs, ∀ q ∈ t.orders, batchBefore (st.heap q).batchId (st.heap f.ptr).batchId →
        matchableAmount (applyFills st.heap fs q) price = 0) := by
  have hperm := group_perm st.heap t.orders
  have hgk := groupsOk_group st.heap t.orders
  obtain ⟨fs, e1, e2, e3, e4, e5, e6⟩ := distributeToGroups_spec hp (groupOrdersByBatchId st.heap t.orders) st amt
    (hperm.nodup_iff.2 hnd) (fun p hp' => hk p (hperm.mem_iff.1 hp')) ha
  rw [totalMatchable_perm hperm] at e3 e4 e5
  refine ⟨fs, e1, ⟨e2.nodup, fun f hf => hperm.mem_iff.1 (e2.sub f hf), e2.price_eq, e2.pos, e2.le⟩, e3 hle,
    fun h1 h2 => e4 h1 hle (h2.mono (fun q hq => hperm.mem_iff.1 hq)), fun h1 => by rw [e5 (by omega), h1], ?_⟩
  intro f hf q hq hbb
  -- locate the two groups
  obtain ⟨gq, hgq, hgqb⟩ := hgk.complete q hq
  obtain ⟨pre, post, heq⟩ := List.append_of_mem hgq
  have hfm : f.ptr ∈ t.orders := hperm.mem_iff.1 (e2.sub f hf)
  obtain ⟨gf, hgf, hgfb⟩ := hgk.complete f.ptr hfm
  have hqin : q ∈ gq.orders := by
    rw [hgk.content gq hgq, List.mem_filter]; exact ⟨hq, by simp [hgqb]⟩
  have hfin : f.ptr ∈ gf.orders := by
    rw [hgk.content gf hgf, List.mem_filter]; exact ⟨hfm, by simp [hgfb]⟩
  apply e6 pre gq post heq f hf _ q hqin
  have hsort := hgk.sorted
  rw [heq] at hgf hsort
  rw [List.pairwise_append] at hsort
  rcases List.mem_append.1 hgf with h1 | h1
  · exfalso
    have := hsort.2.2 gf h1 gq (by simp)
    rw [hgfb, hgqb] at this
    exact batchBefore_irrefl _ (batchBefore_trans hbb this)
  · rcases List.mem_cons.1 h1 with rfl | h1
    · exfalso
      rw [hgfb] at hgqb
      rw [hgqb] at hbb
      exact batchBefore_irrefl _ hbb
    · exact List.mem_flatMap.2 ⟨gf, h1, hfin⟩

end Verif.Amm

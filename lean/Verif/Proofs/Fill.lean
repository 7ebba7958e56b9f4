import Verif.Proofs.Order
import Verif.Model.Match
/-! Fills: the effect of sequences of `FillOrder` calls. -/
namespace Verif.Amm
open Verif

theorem filled_dir (o : Order) (a p : Int) : (filledOrder o a p).dir = o.dir := by
  unfold filledOrder; cases hd : o.dir <;> simp [hd]
theorem filled_price (o : Order) (a p : Int) : (filledOrder o a p).price = o.price := by
  unfold filledOrder; cases hd : o.dir <;> simp
theorem filled_amount (o : Order) (a p : Int) : (filledOrder o a p).amount = o.amount := by
  unfold filledOrder; cases hd : o.dir <;> simp
theorem filled_offer (o : Order) (a p : Int) : (filledOrder o a p).offer = o.offer := by
  unfold filledOrder; cases hd : o.dir <;> simp
theorem filled_kind (o : Order) (a p : Int) : (filledOrder o a p).kind = o.kind := by
  unfold filledOrder; cases hd : o.dir <;> simp
theorem filled_open (o : Order) (a p : Int) : (filledOrder o a p).openAmt = o.openAmt - a := by
  unfold filledOrder; cases hd : o.dir <;> simp
theorem filled_batchId (o : Order) (a p : Int) : (filledOrder o a p).batchId = o.batchId := by
  unfold Order.batchId; rw [filled_kind]

theorem filled_ok {o : Order} (h : OrderOk o) {price : Int} (hp : 0 < price) {a : Int} (ha : 0 ≤ a)
    (ham : a ≤ matchableAmount o price) : OrderOk (filledOrder o a price) := by
  have hc := matchable_cost h hp ha ham
  have ho := matchable_le_open h hp
  have hpa : 0 ≤ price * a := by positivity
  have h1 := quoteCeil_spec hpa
  have h2 := quoteFloor_spec hpa
  obtain ⟨x1, x2, x3, x4, x5, x6, x7⟩ := h
  cases hd : o.dir with
  | buy =>
    rw [hd] at hc; simp only at hc
    unfold filledOrder; rw [hd]; simp only
    constructor <;> simp only <;> first | omega | (intro h; cases h)
  | sell =>
    rw [hd] at hc; simp only at hc
    have := x6 hd
    unfold filledOrder; rw [hd]; simp only
    constructor <;> simp only <;> first | omega | (intro _; omega)

/-- A completely filled order has nothing matchable left at that price. -/
theorem filled_exhausted {o : Order} (h : OrderOk o) {price : Int} (hp : 0 < price) :
    matchableAmount (filledOrder o (matchableAmount o price) price) price = 0 := by
  have hm0 := matchable_nonneg h hp
  have hok := filled_ok h hp hm0 (le_refl _)
  by_cases hz : matchableAmount o price = 0
  · rw [hz]
    have : filledOrder o 0 price = o := by
      have e1 : quoteCeil price 0 = 0 := by simp [quoteCeil, Dec.mulInt, Dec.ceil, Dec.truncateInt]
      have e2 : quoteFloor price 0 = 0 := by simp [quoteFloor, Dec.mulInt, Dec.truncateInt]
      unfold filledOrder
      cases o with
      | mk dir pr am off op pd rc kd => cases dir <;> simp [e1, e2]
    rw [this]; exact hz
  · have q0 : quoteFloor price 0 = 0 := by simp [quoteFloor, Dec.mulInt, Dec.truncateInt]
    cases hd : o.dir with
    | buy =>
      have hd' : (filledOrder o (matchableAmount o price) price).dir = .buy := by rw [filled_dir, hd]
      rw [matchable_buy hok hd' hp]
      have hmb := matchable_buy h hd hp
      set m := matchableAmount o price with hm
      have hm2 : m = min o.openAmt ((o.offer - o.paid) * Dec.one / price) := by
        split at hmb
        · omega
        · exact hmb
      rw [filled_open, filled_offer]
      have hpaid : (filledOrder o m price).paid = o.paid + quoteCeil price m := by unfold filledOrder; rw [hd]
      rw [hpaid]
      have hle : o.paid + quoteCeil price m ≤ o.offer := by have := hok.paid_le; rw [hpaid, filled_offer] at this; exact this
      have key : min (o.openAmt - m) ((o.offer - (o.paid + quoteCeil price m)) * Dec.one / price) = 0 := by
        rcases le_total o.openAmt ((o.offer - o.paid) * Dec.one / price) with hc | hc
        · have : o.openAmt - m = 0 := by omega
          have h3 : 0 ≤ (o.offer - (o.paid + quoteCeil price m)) * Dec.one / price :=
            Int.ediv_nonneg (mul_nonneg (by omega) (le_of_lt one_pos)) (le_of_lt hp)
          omega
        · have hmm : m = (o.offer - o.paid) * Dec.one / price := by omega
          have h3 : (o.offer - (o.paid + quoteCeil price m)) * Dec.one / price = 0 := by
            apply Int.ediv_eq_zero_of_lt
            · exact mul_nonneg (by omega) (le_of_lt one_pos)
            · have h4 := Int.lt_ediv_add_one_mul_self ((o.offer - o.paid) * Dec.one) hp
              rw [← hmm] at h4
              have h5 := (quoteCeil_spec (p := price) (a := m) (by positivity)).2.1
              have : (o.offer - (o.paid + quoteCeil price m)) * Dec.one
                  = (o.offer - o.paid) * Dec.one - quoteCeil price m * Dec.one := by ring
              rw [this]; nlinarith
          have := matchable_le_open h hp
          omega
      rw [key]; simp [q0]
    | sell =>
      have hd' : (filledOrder o (matchableAmount o price) price).dir = .sell := by rw [filled_dir, hd]
      rw [matchable_sell hd', filled_open]
      have := matchable_sell hd price
      split at this
      · exact absurd this hz
      · rw [this]; simp [q0]

/-- Heap update by one fill. -/
def applyFill (h : Heap) (f : Fill) : Heap :=
  fun q => if q = f.ptr then filledOrder (h f.ptr) f.amt f.price else h q

/-- Heap after a sequence of fills. -/
def applyFills (h : Heap) (fs : List Fill) : Heap := fs.foldl applyFill h

/-- Sum of the quote differences of a sequence of fills (directions never change). -/
def fillsDiff (h : Heap) (fs : List Fill) : Int := (fs.map (fun f => fillDiff (h f.ptr).dir f.amt f.price)).sum

/-- State after a sequence of fills. -/
def MState.run (st : MState) (fs : List Fill) : MState :=
  { heap := applyFills st.heap fs, diff := st.diff + fillsDiff st.heap fs, log := st.log ++ fs }

@[simp] theorem applyFills_nil (h : Heap) : applyFills h [] = h := rfl
@[simp] theorem applyFills_cons (h : Heap) (f : Fill) (fs : List Fill) :
    applyFills h (f :: fs) = applyFills (applyFill h f) fs := rfl
theorem applyFills_append (h : Heap) (fs gs : List Fill) :
    applyFills h (fs ++ gs) = applyFills (applyFills h fs) gs := by
  unfold applyFills; rw [List.foldl_append]

theorem applyFill_dir (h : Heap) (f : Fill) (q : Nat) : (applyFill h f q).dir = (h q).dir := by
  unfold applyFill; split
  · rename_i e; rw [filled_dir, e]
  · rfl

theorem applyFills_field {α} (g : Order → α) (hg : ∀ o a p, g (filledOrder o a p) = g o) (h : Heap) (fs : List Fill)
    (q : Nat) : g (applyFills h fs q) = g (h q) := by
  induction fs generalizing h with
  | nil => rfl
  | cons f fs ih =>
    rw [applyFills_cons, ih]
    unfold applyFill; split
    · rename_i e; rw [hg, e]
    · rfl

theorem applyFills_dir (h : Heap) (fs : List Fill) (q : Nat) : (applyFills h fs q).dir = (h q).dir :=
  applyFills_field (·.dir) filled_dir h fs q
theorem applyFills_price (h : Heap) (fs : List Fill) (q : Nat) : (applyFills h fs q).price = (h q).price :=
  applyFills_field (·.price) filled_price h fs q
theorem applyFills_amount (h : Heap) (fs : List Fill) (q : Nat) : (applyFills h fs q).amount = (h q).amount :=
  applyFills_field (·.amount) filled_amount h fs q
theorem applyFills_offer (h : Heap) (fs : List Fill) (q : Nat) : (applyFills h fs q).offer = (h q).offer :=
  applyFills_field (·.offer) filled_offer h fs q
theorem applyFills_kind (h : Heap) (fs : List Fill) (q : Nat) : (applyFills h fs q).kind = (h q).kind :=
  applyFills_field (·.kind) filled_kind h fs q
theorem applyFills_batchId (h : Heap) (fs : List Fill) (q : Nat) : (applyFills h fs q).batchId = (h q).batchId :=
  applyFills_field (·.batchId) filled_batchId h fs q

theorem fillsDiff_append (h : Heap) (fs gs : List Fill) :
    fillsDiff h (fs ++ gs) = fillsDiff h fs + fillsDiff h gs := by
  unfold fillsDiff; rw [List.map_append, List.sum_append]

theorem fillsDiff_applyFills (h : Heap) (fs gs : List Fill) : fillsDiff (applyFills h fs) gs = fillsDiff h gs := by
  unfold fillsDiff
  apply sum_map_congr
  intro f _; rw [applyFills_dir]

@[simp] theorem run_nil (st : MState) : st.run [] = st := by
  unfold MState.run fillsDiff; simp

theorem run_append (st : MState) (fs gs : List Fill) : (st.run fs).run gs = st.run (fs ++ gs) := by
  unfold MState.run
  simp only [applyFills_append, fillsDiff_append, fillsDiff_applyFills, List.append_assoc, add_assoc]

theorem fillOrder_eq {st : MState} {p : Nat} {a price : Int} (h : a ≤ matchableAmount (st.heap p) price) :
    fillOrder st p a price = some (st.run [⟨p, a, price⟩]) := by
  unfold fillOrder MState.run
  rw [if_neg (by omega)]
  simp [applyFill, fillsDiff]
  rfl

theorem applyFills_other {h : Heap} {fs : List Fill} {q : Nat} (hq : ∀ f ∈ fs, f.ptr ≠ q) :
    applyFills h fs q = h q := by
  induction fs generalizing h with
  | nil => rfl
  | cons f fs ih =>
    rw [applyFills_cons, ih (fun g hg => hq g (by simp [hg]))]
    unfold applyFill
    rw [if_neg (fun e => hq f (by simp) e.symm)]

/-- Fills at one price, each order at most once, each positive and within the order's matchable amount in heap `h`. -/
structure Indep (h : Heap) (price : Int) (ps : List Nat) (fs : List Fill) : Prop where
  nodup : (fs.map (·.ptr)).Nodup
  sub : ∀ f ∈ fs, f.ptr ∈ ps
  price_eq : ∀ f ∈ fs, f.price = price
  pos : ∀ f ∈ fs, 0 < f.amt
  le : ∀ f ∈ fs, f.amt ≤ matchableAmount (h f.ptr) price

theorem applyFills_mem {h : Heap} {price : Int} {ps : List Nat} {fs : List Fill} (hi : Indep h price ps fs)
    {f : Fill} (hf : f ∈ fs) : applyFills h fs f.ptr = filledOrder (h f.ptr) f.amt price := by
  have nd := hi.nodup
  have pe := hi.price_eq
  clear hi
  induction fs generalizing h with
  | nil => cases hf
  | cons g gs ih =>
    rw [List.map_cons, List.nodup_cons] at nd
    rw [applyFills_cons]
    rcases List.mem_cons.1 hf with rfl | hf'
    · rw [applyFills_other]
      · unfold applyFill; rw [if_pos rfl, pe f (by simp)]
      · intro g hg e; exact nd.1 (e ▸ List.mem_map_of_mem hg)
    · rw [ih hf' nd.2 (fun x hx => pe x (by simp [hx]))]
      unfold applyFill
      rw [if_neg]
      intro e; exact nd.1 (e ▸ List.mem_map_of_mem hf')

theorem Indep.nil (h : Heap) (price : Int) (ps : List Nat) : Indep h price ps [] :=
  ⟨by simp, by simp, by simp, by simp, by simp⟩

/-- All orders of a heap are ok. -/
def HeapOk (h : Heap) (ps : List Nat) : Prop := ∀ p ∈ ps, OrderOk (h p)

theorem Indep.heapOk {h : Heap} {price : Int} {ps qs : List Nat} {fs : List Fill} (hi : Indep h price ps fs)
    (hp : 0 < price) (hk : HeapOk h qs) : HeapOk (applyFills h fs) qs := by
  intro q hq
  by_cases hc : ∃ f ∈ fs, f.ptr = q
  · obtain ⟨f, hf, rfl⟩ := hc
    rw [applyFills_mem hi hf]
    exact filled_ok (hk _ hq) hp (le_of_lt (hi.pos f hf)) (hi.le f hf)
  · rw [applyFills_other (fun f hf e => hc ⟨f, hf, e⟩)]
    exact hk q hq

/-- Sum of the filled amounts. -/
def amtSum (fs : List Fill) : Int := (fs.map (·.amt)).sum

theorem amtSum_append (fs gs : List Fill) : amtSum (fs ++ gs) = amtSum fs + amtSum gs := by
  unfold amtSum; rw [List.map_append, List.sum_append]

/-- Two independent groups on disjoint sets of orders combine. -/
theorem Indep.append {h : Heap} {price : Int} {ps qs rs : List Nat} {fs gs : List Fill}
    (h1 : Indep h price ps fs) (h2 : Indep (applyFills h fs) price qs gs)
    (hd : ∀ p ∈ ps, p ∉ qs) (hps : ∀ p ∈ ps, p ∈ rs) (hqs : ∀ p ∈ qs, p ∈ rs) : Indep h price rs (fs ++ gs) := by
  have hoth : ∀ g ∈ gs, ∀ f ∈ fs, f.ptr ≠ g.ptr := by
    intro g hg f hf e
    exact hd _ (h1.sub f hf) (e ▸ h2.sub g hg)
  refine ⟨?_, ?_, ?_, ?_, ?_⟩
  · rw [List.map_append, List.nodup_append]
    refine ⟨h1.nodup, h2.nodup, ?_⟩
    intro a ha b hb e
    obtain ⟨f, hf, rfl⟩ := List.mem_map.1 ha
    obtain ⟨g, hg, rfl⟩ := List.mem_map.1 hb
    exact hoth g hg f hf e
  · intro f hf
    rcases List.mem_append.1 hf with hf | hf
    · exact hps _ (h1.sub f hf)
    · exact hqs _ (h2.sub f hf)
  · intro f hf
    rcases List.mem_append.1 hf with hf | hf
    · exact h1.price_eq f hf
    · exact h2.price_eq f hf
  · intro f hf
    rcases List.mem_append.1 hf with hf | hf
    · exact h1.pos f hf
    · exact h2.pos f hf
  · intro f hf
    rcases List.mem_append.1 hf with hf | hf
    · exact h1.le f hf
    · have := h2.le f hf
      rwa [applyFills_other (fun g hg e => hoth f hf g hg e)] at this

/-- The fills made by `FulfillOrders`. -/
def fulfillFills (h : Heap) (ps : List Nat) (price : Int) : List Fill :=
  (ps.filter (fun p => 0 < matchableAmount (h p) price)).map (fun p => ⟨p, matchableAmount (h p) price, price⟩)

theorem fulfillFills_ptrs (h : Heap) (ps : List Nat) (price : Int) :
    (fulfillFills h ps price).map (·.ptr) = ps.filter (fun p => 0 < matchableAmount (h p) price) := by
  unfold fulfillFills; rw [List.map_map]; simp [Function.comp_def]

theorem fulfillFills_congr {h h' : Heap} {ps : List Nat} {price : Int} (he : ∀ p ∈ ps, h' p = h p) :
    fulfillFills h' ps price = fulfillFills h ps price := by
  unfold fulfillFills
  have : ps.filter (fun p => 0 < matchableAmount (h' p) price) = ps.filter (fun p => 0 < matchableAmount (h p) price) := by
    apply List.filter_congr; intro p hp; rw [he p hp]
  rw [this]
  apply List.map_congr_left
  intro p hp
  rw [he p (List.mem_of_mem_filter hp)]

theorem fulfillOrders_eq (st : MState) (ps : List Nat) (price : Int) (hnd : ps.Nodup) :
    fulfillOrders st ps price = some (st.run (fulfillFills st.heap ps price)) := by
  induction ps generalizing st with
  | nil => simp [fulfillOrders, fulfillFills]
  | cons p ps ih =>
    rw [List.nodup_cons] at hnd
    unfold fulfillOrders fulfillOrder
    simp only
    by_cases hm : 0 < matchableAmount (st.heap p) price
    · rw [if_pos hm, fillOrder_eq (le_refl _)]
      simp only
      rw [ih _ hnd.2, run_append]
      have hc : fulfillFills (st.run [⟨p, matchableAmount (st.heap p) price, price⟩]).heap ps price
          = fulfillFills st.heap ps price := by
        apply fulfillFills_congr
        intro q hq
        apply applyFills_other
        intro f hf e
        simp only [List.mem_singleton] at hf
        subst hf
        simp only at e
        subst e
        exact hnd.1 hq
      rw [hc]
      simp [fulfillFills, List.filter_cons, hm]
    · rw [if_neg hm]
      simp only
      rw [ih _ hnd.2]
      simp [fulfillFills, List.filter_cons, hm]

theorem fulfillFills_indep (h : Heap) (ps : List Nat) (price : Int) (hnd : ps.Nodup) :
    Indep h price ps (fulfillFills h ps price) := by
  refine ⟨?_, ?_, ?_, ?_, ?_⟩
  · rw [fulfillFills_ptrs]; exact hnd.filter _
  all_goals
    intro f hf
    unfold fulfillFills at hf
    obtain ⟨p, hp, rfl⟩ := List.mem_map.1 hf
    rw [List.mem_filter] at hp
  · exact hp.1
  · exact of_decide_eq_true hp.2

theorem fulfillFills_sum {h : Heap} {ps : List Nat} {price : Int} (hp : 0 < price) (hk : HeapOk h ps) :
    amtSum (fulfillFills h ps price) = totalMatchable h ps price := by
  unfold amtSum fulfillFills
  rw [List.map_map, totalMatchable_eq]
  simp only [Function.comp_def]
  apply sum_filter_eq
  intro p hpm he
  have := matchable_nonneg (hk p hpm) hp
  simp at he; omega

theorem filled_zero (o : Order) (price : Int) : filledOrder o 0 price = o := by
  have e1 : quoteCeil price 0 = 0 := by simp [quoteCeil, Dec.mulInt, Dec.ceil, Dec.truncateInt]
  have e2 : quoteFloor price 0 = 0 := by simp [quoteFloor, Dec.mulInt, Dec.truncateInt]
  unfold filledOrder
  cases o with
  | mk dir pr am off op pd rc kd => cases dir <;> simp [e1, e2]

/-- `FulfillOrders` fills every order by exactly its matchable amount. -/
theorem fulfillFills_full {h : Heap} {ps : List Nat} {price : Int} (hp : 0 < price) (hk : HeapOk h ps)
    (hnd : ps.Nodup) : ∀ q ∈ ps, applyFills h (fulfillFills h ps price) q = filledOrder (h q) (matchableAmount (h q) price) price := by
  intro q hq
  by_cases hm : 0 < matchableAmount (h q) price
  · have hf : (⟨q, matchableAmount (h q) price, price⟩ : Fill) ∈ fulfillFills h ps price := by
      unfold fulfillFills
      exact List.mem_map.2 ⟨q, by rw [List.mem_filter]; exact ⟨hq, by simpa using hm⟩, rfl⟩
    exact applyFills_mem (fulfillFills_indep h ps price hnd) hf
  · have h0 : matchableAmount (h q) price = 0 := by have := matchable_nonneg (hk q hq) hp; omega
    rw [applyFills_other, h0, filled_zero]
    intro f hf e
    unfold fulfillFills at hf
    obtain ⟨p, hpp, rfl⟩ := List.mem_map.1 hf
    rw [List.mem_filter] at hpp
    simp only at e; subst e
    exact hm (by simpa using hpp.2)

theorem fulfillFills_exhaust {h : Heap} {ps : List Nat} {price : Int} (hp : 0 < price) (hk : HeapOk h ps)
    (hnd : ps.Nodup) : ∀ q ∈ ps, matchableAmount (applyFills h (fulfillFills h ps price) q) price = 0 := by
  intro q hq
  rw [fulfillFills_full hp hk hnd q hq]
  exact filled_exhausted (hk q hq) hp

theorem fillAll_eq (st : MState) (price : Int) (sh : List (Nat × Int)) (hnd : (sh.map (·.1)).Nodup)
    (hle : ∀ e ∈ sh, e.2 ≤ matchableAmount (st.heap e.1) price) :
    fillAll st price sh = some (st.run (sh.map (fun e => ⟨e.1, e.2, price⟩))) := by
  induction sh generalizing st with
  | nil => simp [fillAll]
  | cons e es ih =>
    obtain ⟨p, a⟩ := e
    rw [List.map_cons, List.nodup_cons] at hnd
    unfold fillAll
    rw [fillOrder_eq (hle (p, a) (by simp))]
    simp only
    rw [ih _ hnd.2, run_append]
    · simp
    · intro e he
      have hq : (st.run [⟨p, a, price⟩]).heap e.1 = st.heap e.1 := by
        apply applyFills_other
        intro f hf e'
        simp only [List.mem_singleton] at hf
        subst hf
        simp only at e'
        rw [e'] at hnd
        exact hnd.1 (List.mem_map_of_mem (f := (·.1)) he)
      rw [hq]
      exact hle e (by simp [he])

end Verif.Amm

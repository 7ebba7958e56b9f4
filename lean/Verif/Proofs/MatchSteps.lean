import Verif.Proofs.MatchKind
import Verif.Proofs.Group
import Mathlib.Logic.Relation
import Mathlib.Tactic.Ring
/-! # Matching is a sequence of `FillOrder` calls on orders of the book, whatever the orders are -/
namespace Verif.Amm
open Verif

/-- One `FillOrder` call on an order of `L`. -/
def FillStep (L : List Nat) (st st' : MState) : Prop := ∃ p ∈ L, ∃ amt price, fillOrder st p amt price = some st'

abbrev FillSteps (L : List Nat) : MState → MState → Prop := Relation.ReflTransGen (FillStep L)

theorem fills_fulfill {L : List Nat} {st st' : MState} {p : Nat} {price : Int} (hp : p ∈ L)
    (h : fulfillOrder st p price = some st') : FillSteps L st st' := by
  unfold fulfillOrder at h
  simp only at h
  split at h
  · exact Relation.ReflTransGen.single ⟨p, hp, _, _, h⟩
  · have h := Option.some.inj h
    subst h
    exact Relation.ReflTransGen.refl

theorem fills_fulfillAll {L : List Nat} {price : Int} : ∀ {ps : List Nat} {st st' : MState}, (∀ p ∈ ps, p ∈ L) →
    fulfillOrders st ps price = some st' → FillSteps L st st' := by
  intro ps
  induction ps with
  | nil => intro st st' _ h; simp only [fulfillOrders, Option.some.injEq] at h; subst h; exact Relation.ReflTransGen.refl
  | cons p ps ih =>
    intro st st' hp h
    unfold fulfillOrders at h
    split at h
    · cases h
    · rename_i st1 h1
      exact (fills_fulfill (hp p (by simp)) h1).trans (ih (fun q hq => hp q (by simp [hq])) h)

theorem fills_fillAll {L : List Nat} {price : Int} : ∀ {l : List (Nat × Int)} {st st' : MState}, (∀ e ∈ l, e.1 ∈ L) →
    fillAll st price l = some st' → FillSteps L st st' := by
  intro l
  induction l with
  | nil => intro st st' _ h; simp only [fillAll, Option.some.injEq] at h; subst h; exact Relation.ReflTransGen.refl
  | cons e l ih =>
    obtain ⟨p, a⟩ := e
    intro st st' hp h
    unfold fillAll at h
    split at h
    · cases h
    · rename_i st1 h1
      exact Relation.ReflTransGen.head ⟨p, hp (p, a) (by simp), _, _, h1⟩ (ih (fun q hq => hp q (by simp [hq])) h)

theorem secondShare_fst (h : Heap) (price : Int) : ∀ (l : List (Nat × Int)) (rem : Int),
    (secondShare h price rem l).map (·.1) = l.map (·.1) := by
  intro l
  induction l with
  | nil => intro rem; rfl
  | cons e l ih =>
    obtain ⟨p, a⟩ := e
    intro rem
    unfold secondShare
    split
    · rfl
    · simp [ih]

theorem shares_mem {h : Heap} {ps : List Nat} {amt price : Int} {e : Nat × Int} (he : e ∈ shares h ps amt price) : e.1 ∈ ps := by
  have : e.1 ∈ (shares h ps amt price).map (·.1) := List.mem_map_of_mem he
  unfold shares at this
  simp only at this
  rw [secondShare_fst, List.map_map] at this
  simpa using this

theorem fills_distOrders {L : List Nat} {price : Int} : ∀ (fuel : Nat) {st st' : MState} {ps : List Nat} {amt : Int},
    (∀ p ∈ ps, p ∈ L) → distributeToOrders fuel st ps amt price = some st' → FillSteps L st st' := by
  intro fuel
  induction fuel with
  | zero => intro st st' ps amt _ h; simp only [distributeToOrders, Option.some.injEq] at h; subst h; exact Relation.ReflTransGen.refl
  | succ n ih =>
    intro st st' ps amt hp h
    rw [distributeToOrders] at h
    split at h
    · cases h
    · simp only at h
      split at h
      · split at h
        · exact ih (fun p hq => hp p (List.dropLast_subset _ hq)) h
        · refine ih ?_ h
          intro p hq
          obtain ⟨e, he, rfl⟩ := List.mem_map.1 hq
          exact hp _ (shares_mem (List.mem_filter.1 he).1)
      · exact fills_fillAll (fun e he => hp _ (shares_mem he)) h

theorem fills_distGroups {L : List Nat} {price : Int} : ∀ {gs : List OrderGroup} {st st' : MState} {rem : Int},
    (∀ g ∈ gs, ∀ p ∈ g.orders, p ∈ L) → distributeToGroups st gs rem price = some st' → FillSteps L st st' := by
  intro gs
  induction gs with
  | nil => intro st st' rem _ h; simp only [distributeToGroups, Option.some.injEq] at h; subst h; exact Relation.ReflTransGen.refl
  | cons g gs ih =>
    intro st st' rem hp h
    have hp1 := hp g (by simp)
    have hp2 : ∀ g ∈ gs, ∀ p ∈ g.orders, p ∈ L := fun g' hg => hp g' (by simp [hg])
    rw [distributeToGroups] at h
    split at h
    · exact ih hp2 h
    · split at h
      · split at h
        · cases h
        · rename_i st1 h1
          split at h
          · have h := Option.some.inj h
            subst h
            exact fills_fulfillAll hp1 h1
          · exact (fills_fulfillAll hp1 h1).trans (ih hp2 h)
      · exact fills_distOrders _ (fun p hq => hp1 p ((sort_perm _ _).mem_iff.1 hq)) h

theorem fills_distTick {L : List Nat} {st st' : MState} {t : Tick} {amt price : Int} (hp : ∀ p ∈ t.orders, p ∈ L)
    (h : distributeToTick st t amt price = some st') : FillSteps L st st' := by
  refine fills_distGroups ?_ h
  intro g hg p hq
  exact hp p ((group_perm st.heap t.orders).mem_iff.1 (List.mem_flatMap.2 ⟨g, hg, hq⟩))

theorem fills_distTicks {L : List Nat} {price : Int} : ∀ {ts : List Tick} {st st' : MState} {rem : Int},
    (∀ t ∈ ts, ∀ p ∈ t.orders, p ∈ L) → distributeToTicks st ts rem price = some st' → FillSteps L st st' := by
  intro ts
  induction ts with
  | nil => intro st st' rem _ h; simp only [distributeToTicks, Option.some.injEq] at h; subst h; exact Relation.ReflTransGen.refl
  | cons g gs ih =>
    intro st st' rem hp h
    have hp1 := hp g (by simp)
    have hp2 : ∀ g ∈ gs, ∀ p ∈ g.orders, p ∈ L := fun g' hg => hp g' (by simp [hg])
    rw [distributeToTicks] at h
    split at h
    · split at h
      · cases h
      · rename_i st1 h1
        split at h
        · have h := Option.some.inj h
          subst h
          exact fills_fulfillAll hp1 h1
        · exact (fills_fulfillAll hp1 h1).trans (ih hp2 h)
    · exact fills_distTick hp1 h

theorem fills_single {h : Heap} {ob : OrderBook} {mp : Int} {st : MState} {m : Bool}
    (e : matchAtSinglePrice h ob mp = some (st, m)) : FillSteps ob.orders { heap := h, diff := 0, log := [] } st := by
  have hb : ∀ t ∈ ob.buys, ∀ p ∈ t.orders, p ∈ ob.orders := fun t ht p hp => List.mem_flatMap.2 ⟨t, by simp [ht], hp⟩
  have hs : ∀ t ∈ ob.sells, ∀ p ∈ t.orders, p ∈ ob.orders := fun t ht p hp => List.mem_flatMap.2 ⟨t, by simp [ht], hp⟩
  unfold matchAtSinglePrice at e
  simp only at e
  split at e
  · simp only [Option.some.injEq, Prod.mk.injEq] at e
    rw [← e.1]
  · split at e
    · cases e
    · rename_i st1 h1
      split at e
      · cases e
      · rename_i st2 h2
        simp only [Option.some.injEq, Prod.mk.injEq] at e
        rw [← e.1]
        exact (fills_distTicks hb h1).trans (fills_distTicks hs h2)

theorem fills_loop {L : List Nat} {dir : PriceDir} : ∀ (fuel : Nat) {st st' : MState} {bs ss : List Tick} {mp mp' : Int} {m m' : Bool},
    (∀ t ∈ bs, ∀ p ∈ t.orders, p ∈ L) → (∀ t ∈ ss, ∀ p ∈ t.orders, p ∈ L) →
    matchLoop dir fuel st bs ss mp m = some (st', mp', m') → FillSteps L st st' := by
  intro fuel
  induction fuel with
  | zero =>
    intro st st' bs ss mp mp' m m' _ _ h
    simp only [matchLoop, Option.some.injEq, Prod.mk.injEq] at h
    rw [← h.1]
  | succ n ih =>
    intro st st' bs ss mp mp' m m' hb hs h
    cases bs with
    | nil =>
      simp only [matchLoop, Option.some.injEq, Prod.mk.injEq] at h
      rw [← h.1]
    | cons b bs =>
      cases ss with
      | nil =>
        simp only [matchLoop, Option.some.injEq, Prod.mk.injEq] at h
        rw [← h.1]
      | cons t ss =>
        have hb1 := hb b (by simp)
        have hb2 : ∀ t ∈ bs, ∀ p ∈ t.orders, p ∈ L := fun t ht => hb t (by simp [ht])
        have hs1 := hs t (by simp)
        have hs2 : ∀ t ∈ ss, ∀ p ∈ t.orders, p ∈ L := fun t ht => hs t (by simp [ht])
        rw [matchLoop] at h
        split at h
        · simp only [Option.some.injEq, Prod.mk.injEq] at h
          rw [← h.1]
        · simp only at h
          generalize (if dir = PriceDir.increasing then t.price else b.price) = p at h
          split at h
          · exact ih hb2 hs h
          · split at h
            · exact ih hb hs2 h
            · split at h
              · cases h
              · rename_i st1 h1
                split at h
                · cases h
                · rename_i st2 h2
                  refine ((fills_distTick hb1 h1).trans (fills_distTick hs1 h2)).trans (ih ?_ ?_ h)
                  · split
                    · exact hb2
                    · exact hb
                  · split
                    · exact hs2
                    · exact hs

theorem fills_match {h : Heap} {ob : OrderBook} {last : Int} {r : MatchResult} (e : obMatch h ob last = some r) :
    FillSteps ob.orders { heap := h, diff := 0, log := [] } r.st := by
  have hb : ∀ t ∈ ob.buys, ∀ p ∈ t.orders, p ∈ ob.orders := fun t ht p hp => List.mem_flatMap.2 ⟨t, by simp [ht], hp⟩
  have hs : ∀ t ∈ ob.sells, ∀ p ∈ t.orders, p ∈ ob.orders := fun t ht p hp => List.mem_flatMap.2 ⟨t, by simp [ht], hp⟩
  unfold obMatch at e
  split at e
  · have e := Option.some.inj e
    subst e
    exact Relation.ReflTransGen.refl
  · simp only at e
    split at e
    · cases e
    · rename_i st m h1
      split at e
      · have e := Option.some.inj e
        subst e
        exact fills_single h1
      · split at e
        · cases e
        · rename_i st2 mp2 m2 h2
          have e := Option.some.inj e
          subst e
          exact (fills_single h1).trans (fills_loop _ hb hs h2)

/-- Signed quote flow of an order: what a buy has paid, less what a sell has received. -/
def quoteFlow (o : Order) : Int := match o.dir with | .buy => o.paid | .sell => -o.received

/-- What the fills do to the books of the matching. -/
structure Accounted (L : List Nat) (st st' : MState) : Prop where
  ids : SameIds st.heap st'.heap
  buy : ∀ p, (st.heap p).dir = .buy → (st'.heap p).received + (st'.heap p).openAmt = (st.heap p).received + (st.heap p).openAmt
  sell : ∀ p, (st.heap p).dir = .sell → (st'.heap p).paid + (st'.heap p).openAmt = (st.heap p).paid + (st.heap p).openAmt
  other : ∀ p, p ∉ L → st'.heap p = st.heap p
  quote : (L.map (fun p => quoteFlow (st'.heap p))).sum - st'.diff = (L.map (fun p => quoteFlow (st.heap p))).sum - st.diff

theorem Accounted.refl (L : List Nat) (st : MState) : Accounted L st st :=
  ⟨SameIds.refl _, fun _ _ => rfl, fun _ _ => rfl, fun _ _ => rfl, rfl⟩

theorem Accounted.trans {L : List Nat} {a b c : MState} (h : Accounted L a b) (h' : Accounted L b c) : Accounted L a c :=
  ⟨h.ids.trans h'.ids, fun p hp => (h'.buy p ((h.ids p).2.1.trans hp)).trans (h.buy p hp),
    fun p hp => (h'.sell p ((h.ids p).2.1.trans hp)).trans (h.sell p hp), fun p hp => (h'.other p hp).trans (h.other p hp),
    h'.quote.trans h.quote⟩

theorem sum_map_update {l : List Nat} (hnd : l.Nodup) {p : Nat} (hp : p ∈ l) (f g : Nat → Int) (h : ∀ q, q ≠ p → g q = f q) :
    (l.map g).sum = (l.map f).sum + (g p - f p) := by
  induction l with
  | nil => cases hp
  | cons a l ih =>
    rw [List.nodup_cons] at hnd
    simp only [List.map_cons, List.sum_cons]
    by_cases e : a = p
    · subst e
      have : l.map g = l.map f := List.map_congr_left (fun q hq => h q (fun e => hnd.1 (e ▸ hq)))
      rw [this]; ring
    · rcases List.mem_cons.1 hp with h1 | h1
      · exact absurd h1.symm e
      · rw [ih hnd.2 h1, h a e]; ring

theorem accounted_fill {L : List Nat} (hnd : L.Nodup) {st st' : MState} {p : Nat} {amt price : Int} (hp : p ∈ L)
    (h : fillOrder st p amt price = some st') : Accounted L st st' := by
  have hi := ids_fill h
  unfold fillOrder at h
  split at h
  · cases h
  · have h := Option.some.inj h
    subst h
    refine ⟨hi, ?_, ?_, ?_, ?_⟩
    · intro q hq
      simp only
      split
      · rename_i e; subst e; unfold filledOrder; simp only [hq]; ring
      · rfl
    · intro q hq
      simp only
      split
      · rename_i e; subst e; unfold filledOrder; simp only [hq]; ring
      · rfl
    · intro q hq
      simp only
      rw [if_neg (fun e => hq (by rw [e]; exact hp))]
    · rw [sum_map_update hnd hp (fun q => quoteFlow (st.heap q))]
      · simp only [if_true]
        unfold quoteFlow filledOrder fillDiff
        cases (st.heap p).dir <;> simp only <;> ring
      · intro q hq
        simp only [if_neg hq]

theorem accounted_steps {L : List Nat} (hnd : L.Nodup) {st st' : MState} (h : FillSteps L st st') : Accounted L st st' := by
  induction h with
  | refl => exact Accounted.refl L st
  | tail _ h ih =>
    obtain ⟨p, hp, amt, price, h⟩ := h
    exact ih.trans (accounted_fill hnd hp h)

end Verif.Amm

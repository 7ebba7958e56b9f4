import Verif.Model.Match
import Verif.Proofs.OrderBook
/-! # Matching never changes the identity of an order, whatever the orders are -/
namespace Verif.Amm
open Verif

/-- The two heaps hold the same orders up to their fill state. -/
def SameIds (h h' : Heap) : Prop :=
  ∀ p, (h' p).kind = (h p).kind ∧ (h' p).dir = (h p).dir ∧ (h' p).price = (h p).price ∧ (h' p).amount = (h p).amount ∧
    (h' p).offer = (h p).offer

theorem SameIds.refl (h : Heap) : SameIds h h := fun _ => ⟨rfl, rfl, rfl, rfl, rfl⟩

theorem SameIds.trans {a b c : Heap} (h : SameIds a b) (h' : SameIds b c) : SameIds a c := fun p => by
  obtain ⟨x1, x2, x3, x4, x5⟩ := h p
  obtain ⟨y1, y2, y3, y4, y5⟩ := h' p
  exact ⟨y1.trans x1, y2.trans x2, y3.trans x3, y4.trans x4, y5.trans x5⟩

theorem ids_fill {st st' : MState} {p : Nat} {amt price : Int} (h : fillOrder st p amt price = some st') :
    SameIds st.heap st'.heap := by
  unfold fillOrder at h
  split at h
  · cases h
  · have h := Option.some.inj h
    subst h
    intro q
    simp only
    split
    · rename_i e
      subst e
      unfold filledOrder
      split <;> exact ⟨rfl, rfl, rfl, rfl, rfl⟩
    · exact ⟨rfl, rfl, rfl, rfl, rfl⟩

theorem ids_fulfill {st st' : MState} {p : Nat} {price : Int} (h : fulfillOrder st p price = some st') :
    SameIds st.heap st'.heap := by
  unfold fulfillOrder at h
  simp only at h
  split at h
  · exact ids_fill h
  · have h := Option.some.inj h
    subst h
    exact SameIds.refl _

theorem ids_fulfillAll {price : Int} : ∀ {ps : List Nat} {st st' : MState}, fulfillOrders st ps price = some st' →
    SameIds st.heap st'.heap := by
  intro ps
  induction ps with
  | nil => intro st st' h; simp only [fulfillOrders, Option.some.injEq] at h; subst h; exact SameIds.refl _
  | cons p ps ih =>
    intro st st' h
    unfold fulfillOrders at h
    split at h
    · cases h
    · rename_i st1 h1
      exact (ids_fulfill h1).trans (ih h)

theorem ids_fillAll {price : Int} : ∀ {l : List (Nat × Int)} {st st' : MState}, fillAll st price l = some st' →
    SameIds st.heap st'.heap := by
  intro l
  induction l with
  | nil => intro st st' h; simp only [fillAll, Option.some.injEq] at h; subst h; exact SameIds.refl _
  | cons e l ih =>
    obtain ⟨p, a⟩ := e
    intro st st' h
    unfold fillAll at h
    split at h
    · cases h
    · rename_i st1 h1
      exact (ids_fill h1).trans (ih h)

theorem ids_distOrders {price : Int} : ∀ (fuel : Nat) {st st' : MState} {ps : List Nat} {amt : Int},
    distributeToOrders fuel st ps amt price = some st' → SameIds st.heap st'.heap := by
  intro fuel
  induction fuel with
  | zero => intro st st' ps amt h; simp only [distributeToOrders, Option.some.injEq] at h; subst h; exact SameIds.refl _
  | succ n ih =>
    intro st st' ps amt h
    rw [distributeToOrders] at h
    split at h
    · cases h
    · simp only at h
      split at h
      · split at h
        · exact ih h
        · exact ih h
      · exact ids_fillAll h

theorem ids_distGroups {price : Int} : ∀ {gs : List OrderGroup} {st st' : MState} {rem : Int},
    distributeToGroups st gs rem price = some st' → SameIds st.heap st'.heap := by
  intro gs
  induction gs with
  | nil => intro st st' rem h; simp only [distributeToGroups, Option.some.injEq] at h; subst h; exact SameIds.refl _
  | cons g gs ih =>
    intro st st' rem h
    rw [distributeToGroups] at h
    split at h
    · exact ih h
    · split at h
      · split at h
        · cases h
        · rename_i st1 h1
          split at h
          · have h := Option.some.inj h
            subst h
            exact ids_fulfillAll h1
          · exact (ids_fulfillAll h1).trans (ih h)
      · exact ids_distOrders _ h

theorem ids_distTick {st st' : MState} {t : Tick} {amt price : Int} (h : distributeToTick st t amt price = some st') :
    SameIds st.heap st'.heap := ids_distGroups h

theorem ids_distTicks {price : Int} : ∀ {ts : List Tick} {st st' : MState} {rem : Int},
    distributeToTicks st ts rem price = some st' → SameIds st.heap st'.heap := by
  intro ts
  induction ts with
  | nil => intro st st' rem h; simp only [distributeToTicks, Option.some.injEq] at h; subst h; exact SameIds.refl _
  | cons g gs ih =>
    intro st st' rem h
    rw [distributeToTicks] at h
    split at h
    · split at h
      · cases h
      · rename_i st1 h1
        split at h
        · have h := Option.some.inj h
          subst h
          exact ids_fulfillAll h1
        · exact (ids_fulfillAll h1).trans (ih h)
    · exact ids_distTick h

theorem ids_single {h : Heap} {ob : OrderBook} {mp : Int} {st : MState} {m : Bool}
    (e : matchAtSinglePrice h ob mp = some (st, m)) : SameIds h st.heap := by
  unfold matchAtSinglePrice at e
  simp only at e
  split at e
  · simp only [Option.some.injEq, Prod.mk.injEq] at e
    rw [← e.1]; exact SameIds.refl _
  · split at e
    · cases e
    · rename_i st1 h1
      split at e
      · cases e
      · rename_i st2 h2
        simp only [Option.some.injEq, Prod.mk.injEq] at e
        rw [← e.1]
        exact (ids_distTicks h1).trans (ids_distTicks h2)

theorem ids_loop {dir : PriceDir} : ∀ (fuel : Nat) {st st' : MState} {bs ss : List Tick} {mp mp' : Int} {m m' : Bool},
    matchLoop dir fuel st bs ss mp m = some (st', mp', m') → SameIds st.heap st'.heap := by
  intro fuel
  induction fuel with
  | zero =>
    intro st st' bs ss mp mp' m m' h
    simp only [matchLoop, Option.some.injEq, Prod.mk.injEq] at h
    rw [← h.1]; exact SameIds.refl _
  | succ n ih =>
    intro st st' bs ss mp mp' m m' h
    cases bs with
    | nil =>
      simp only [matchLoop, Option.some.injEq, Prod.mk.injEq] at h
      rw [← h.1]; exact SameIds.refl _
    | cons b bs =>
      cases ss with
      | nil =>
        simp only [matchLoop, Option.some.injEq, Prod.mk.injEq] at h
        rw [← h.1]; exact SameIds.refl _
      | cons t ss =>
        rw [matchLoop] at h
        split at h
        · simp only [Option.some.injEq, Prod.mk.injEq] at h
          rw [← h.1]; exact SameIds.refl _
        · simp only at h
          generalize (if dir = PriceDir.increasing then t.price else b.price) = p at h
          split at h
          · exact ih h
          · split at h
            · exact ih h
            · split at h
              · cases h
              · rename_i st1 h1
                split at h
                · cases h
                · rename_i st2 h2
                  exact ((ids_distTick h1).trans (ids_distTick h2)).trans (ih h)

/-- `Match` keeps the identity of every order. -/
theorem ids_match {h : Heap} {ob : OrderBook} {last : Int} {r : MatchResult} (e : obMatch h ob last = some r) :
    SameIds h r.st.heap := by
  unfold obMatch at e
  split at e
  · have e := Option.some.inj e
    subst e
    exact SameIds.refl _
  · simp only at e
    split at e
    · cases e
    · rename_i st m h1
      split at e
      · have e := Option.some.inj e
        subst e
        exact ids_single h1
      · split at e
        · cases e
        · rename_i st2 mp2 m2 h2
          have e := Option.some.inj e
          subst e
          exact (ids_single h1).trans (ids_loop _ h2)


/-- The orders of a book are among the added ones, each once. -/
theorem book_orders_nodup (h : Heap) {ps : List Nat} (hnd : ps.Nodup) :
    (newOrderBook h ps).orders.Nodup ∧ (∀ p ∈ (newOrderBook h ps).orders, p ∈ ps) ∧
    (∀ p ∈ ps, p ∈ (newOrderBook h ps).orders ↔ 0 < matchableAmount (h p) (h p).price) := by
  have hk := bookOk_new h ps
  have hp : (newOrderBook h ps).orders.Perm (eligible h .buy ps ++ eligible h .sell ps) := by
    unfold OrderBook.orders
    rw [List.flatMap_append]
    exact hk.buys.perm.append hk.sells.perm
  refine ⟨?_, ?_, ?_⟩
  · rw [hp.nodup_iff, List.nodup_append]
    refine ⟨hnd.filter _, hnd.filter _, ?_⟩
    intro a ha b hb e
    subst e
    unfold eligible at ha hb
    simp only [List.mem_filter, Bool.and_eq_true, decide_eq_true_eq] at ha hb
    rw [ha.2.1] at hb
    exact absurd hb.2.1 (by simp)
  · intro p hp'
    rw [hp.mem_iff, List.mem_append] at hp'
    unfold eligible at hp'
    rcases hp' with h1 | h1 <;> exact (List.mem_filter.1 h1).1
  · intro p hp'
    rw [hp.mem_iff, List.mem_append]
    unfold eligible
    simp only [List.mem_filter, Bool.and_eq_true, decide_eq_true_eq, hp', true_and]
    cases hd : (h p).dir <;> simp

end Verif.Amm

import Verif.Spec.Bank
import Mathlib.Tactic.Linarith
import Mathlib.Tactic.Ring
import Mathlib.Algebra.BigOperators.Group.List.Basic
import Mathlib.Algebra.BigOperators.Ring.Finset
import Mathlib.Algebra.Order.BigOperators.Group.Finset
import Mathlib.Algebra.Order.BigOperators.Group.List
/-! # Facts about the bank -/
namespace Verif.Dex
open Verif.Spec

@[simp] theorem amountOf_nil (d : Denom) : amountOf [] d = 0 := rfl

theorem amountOf_cons (c : Coin) (cs : Coins) (d : Denom) :
    amountOf (c :: cs) d = (if c.denom = d then c.amt else 0) + amountOf cs d := by simp [amountOf]

theorem amountOf_append (a b : Coins) (d : Denom) : amountOf (a ++ b) d = amountOf a d + amountOf b d := by
  simp [amountOf]

@[simp] theorem amountOf_single (e d : Denom) (x : Int) : amountOf [⟨e, x⟩] d = if e = d then x else 0 := by
  simp [amountOf]

theorem amountOf_nonneg {cs : Coins} (h : ∀ c ∈ cs, 0 ≤ c.amt) (d : Denom) : 0 ≤ amountOf cs d := by
  unfold amountOf
  apply List.sum_nonneg
  intro x hx
  obtain ⟨c, hc, rfl⟩ := List.mem_map.1 hx
  split
  · exact h c hc
  · exact le_refl _

theorem amountOf_of_not_mem {cs : Coins} {d : Denom} (h : ∀ c ∈ cs, c.denom ≠ d) : amountOf cs d = 0 := by
  unfold amountOf
  apply List.sum_eq_zero
  intro x hx
  obtain ⟨c, hc, rfl⟩ := List.mem_map.1 hx
  simp [h c hc]

theorem amountOf_zero {cs : Coins} (h : ∀ c ∈ cs, c.amt = 0) (d : Denom) : amountOf cs d = 0 := by
  unfold amountOf
  apply List.sum_eq_zero
  intro x hx
  obtain ⟨c, hc, rfl⟩ := List.mem_map.1 hx
  simp [h c hc]

/-- What a successful transfer does. -/
theorem send_some {b b' : Bank} {src dst : Addr} {cs : Coins} (h : b.send src dst cs = some b') :
    (∀ c ∈ cs, 0 ≤ c.amt) ∧ (∀ c ∈ cs, amountOf cs c.denom ≤ b.bal src c.denom) ∧ b'.supply = b.supply ∧
    ∀ a d, b'.bal a d = b.bal a d + transferEffect ⟨src, dst, cs⟩ a d := by
  unfold Bank.send at h
  split at h
  · rename_i hc
    have h := Option.some.inj h
    subst h
    refine ⟨hc.1, hc.2, rfl, ?_⟩
    intro a d
    simp only [transferEffect]; ring
  · cases h

theorem send_isSome {b : Bank} {src dst : Addr} {cs : Coins} (h1 : ∀ c ∈ cs, 0 ≤ c.amt)
    (h2 : ∀ c ∈ cs, amountOf cs c.denom ≤ b.bal src c.denom) : ∃ b', b.send src dst cs = some b' := by
  unfold Bank.send
  rw [if_pos ⟨h1, h2⟩]
  exact ⟨_, rfl⟩

theorem Bank.ext' {a b : Bank} (h1 : ∀ x d, a.bal x d = b.bal x d) (h2 : a.supply = b.supply) : a = b := by
  cases a; cases b
  simp only [Bank.mk.injEq]
  exact ⟨funext fun x => funext fun d => h1 x d, h2⟩

theorem effect_bounds {t : SendTx} (h : ∀ c ∈ t.amt, 0 ≤ c.amt) (a : Addr) (d : Denom) (hne : a ≠ t.src) :
    0 ≤ transferEffect t a d := by
  unfold transferEffect
  rw [if_neg hne]
  have := amountOf_nonneg h d
  split <;> omega

/-- Any account but the source loses nothing. -/
theorem send_mono {b b' : Bank} {src dst : Addr} {cs : Coins} (h : b.send src dst cs = some b') {a : Addr} (hne : a ≠ src)
    (d : Denom) : b.bal a d ≤ b'.bal a d := by
  obtain ⟨h1, _, _, h4⟩ := send_some h
  rw [h4 a d]
  have := effect_bounds (t := ⟨src, dst, cs⟩) h1 a d hne
  omega

theorem send_nonneg {b b' : Bank} {src dst : Addr} {cs : Coins} (hb : NonNegative b) (h : b.send src dst cs = some b') :
    NonNegative b' := by
  intro a d
  by_cases hne : a = src
  · obtain ⟨h1, h2, _, h4⟩ := send_some h
    rw [h4 a d]
    unfold transferEffect
    simp only [hne, if_true]
    have hn := amountOf_nonneg h1 d
    have hle : amountOf cs d ≤ b.bal src d := by
      by_cases hm : ∃ c ∈ cs, c.denom = d
      · obtain ⟨c, hc, rfl⟩ := hm; exact h2 c hc
      · push Not at hm
        rw [amountOf_of_not_mem hm]; exact hb src d
    split <;> omega
  · exact le_trans (hb a d) (send_mono h hne d)

theorem supply_support {b : Bank} {d : Denom} {L L' : Finset Addr} (h0 : ∀ a, a ∉ L → b.bal a d = 0) (hsub : L ⊆ L') :
    (∑ a ∈ L', b.bal a d) = ∑ a ∈ L, b.bal a d :=
  (Finset.sum_subset hsub (fun a _ hn => h0 a hn)).symm

theorem send_supply {b b' : Bank} {src dst : Addr} {cs : Coins} (hb : SupplyIsSum b) (h : b.send src dst cs = some b') :
    SupplyIsSum b' := by
  obtain ⟨_, _, h3, h4⟩ := send_some h
  intro d
  obtain ⟨L, h0, hs⟩ := hb d
  refine ⟨L ∪ {src, dst}, ?_, ?_⟩
  · intro a ha
    rw [Finset.mem_union, not_or] at ha
    have h5 : a ≠ src ∧ a ≠ dst := by simpa [not_or] using ha.2
    rw [h4 a d, h0 a ha.1]
    simp [transferEffect, h5.1, h5.2]
  · rw [h3, ← hs]
    rw [← supply_support h0 (Finset.subset_union_left (s₁ := L) (s₂ := {src, dst}))]
    rw [Finset.sum_congr rfl (fun a _ => h4 a d), Finset.sum_add_distrib]
    have : (∑ a ∈ L ∪ {src, dst}, transferEffect ⟨src, dst, cs⟩ a d) = 0 := by
      unfold transferEffect
      rw [Finset.sum_sub_distrib, Finset.sum_ite_eq', Finset.sum_ite_eq']
      simp
    rw [this, add_zero]

theorem mint_some {b b' : Bank} {c : Coin} (h : b.mint c = some b') :
    0 ≤ c.amt ∧ (∀ a d, b'.bal a d = b.bal a d + (if a = .dexModule ∧ d = c.denom then c.amt else 0)) ∧
    (∀ d, b'.supply d = b.supply d + (if d = c.denom then c.amt else 0)) := by
  unfold Bank.mint at h
  split at h
  · rename_i hc
    have h := Option.some.inj h
    subst h
    exact ⟨hc, fun _ _ => rfl, fun _ => rfl⟩
  · cases h

theorem burn_some {b b' : Bank} {c : Coin} (h : b.burn c = some b') :
    0 ≤ c.amt ∧ c.amt ≤ b.bal .dexModule c.denom ∧
    (∀ a d, b'.bal a d = b.bal a d - (if a = .dexModule ∧ d = c.denom then c.amt else 0)) ∧
    (∀ d, b'.supply d = b.supply d - (if d = c.denom then c.amt else 0)) := by
  unfold Bank.burn at h
  split at h
  · rename_i hc
    have h := Option.some.inj h
    subst h
    exact ⟨hc.1, hc.2, fun _ _ => rfl, fun _ => rfl⟩
  · cases h

theorem mint_nonneg {b b' : Bank} {c : Coin} (hb : NonNegative b) (h : b.mint c = some b') : NonNegative b' := by
  obtain ⟨h1, h2, _⟩ := mint_some h
  intro a d
  rw [h2]
  have := hb a d
  split <;> omega

theorem burn_nonneg {b b' : Bank} {c : Coin} (hb : NonNegative b) (h : b.burn c = some b') : NonNegative b' := by
  obtain ⟨h1, h2, h3, _⟩ := burn_some h
  intro a d
  rw [h3]
  have := hb a d
  split
  · rename_i he
    rw [he.1, he.2]; omega
  · omega

theorem sum_point {L : Finset Addr} (hm : Addr.dexModule ∈ L) (e d : Denom) (x : Int) :
    (∑ a ∈ L, if a = Addr.dexModule ∧ d = e then x else 0) = if d = e then x else 0 := by
  by_cases he : d = e
  · simp only [he, and_true, if_true]
    rw [Finset.sum_ite_eq' L Addr.dexModule (fun _ => x)]
    simp [hm]
  · simp [he]

theorem mint_supply {b b' : Bank} {c : Coin} (hb : SupplyIsSum b) (h : b.mint c = some b') : SupplyIsSum b' := by
  obtain ⟨_, h2, h3⟩ := mint_some h
  intro d
  obtain ⟨L, h0, hs⟩ := hb d
  refine ⟨L ∪ {.dexModule}, ?_, ?_⟩
  · intro a ha
    rw [Finset.mem_union, not_or] at ha
    have h5 : a ≠ .dexModule := by simpa using ha.2
    rw [h2 a d, h0 a ha.1]
    simp [h5]
  · rw [h3, ← hs, ← supply_support h0 (Finset.subset_union_left (s₁ := L) (s₂ := {Addr.dexModule}))]
    rw [Finset.sum_congr rfl (fun a _ => h2 a d), Finset.sum_add_distrib, sum_point (by simp)]

theorem burn_supply {b b' : Bank} {c : Coin} (hb : SupplyIsSum b) (h : b.burn c = some b') : SupplyIsSum b' := by
  obtain ⟨_, _, h2, h3⟩ := burn_some h
  intro d
  obtain ⟨L, h0, hs⟩ := hb d
  refine ⟨L ∪ {.dexModule}, ?_, ?_⟩
  · intro a ha
    rw [Finset.mem_union, not_or] at ha
    have h5 : a ≠ .dexModule := by simpa using ha.2
    rw [h2 a d, h0 a ha.1]
    simp [h5]
  · rw [h3, ← hs, ← supply_support h0 (Finset.subset_union_left (s₁ := L) (s₂ := {Addr.dexModule}))]
    rw [Finset.sum_congr rfl (fun a _ => h2 a d), Finset.sum_sub_distrib, sum_point (by simp)]

/-- A single balance never exceeds the supply. -/
theorem bal_le_supply {b : Bank} (hn : NonNegative b) (hs : SupplyIsSum b) (a : Addr) (d : Denom) : b.bal a d ≤ b.supply d := by
  obtain ⟨L, h0, hsum⟩ := hs d
  rw [← hsum]
  by_cases ha : a ∈ L
  · exact Finset.single_le_sum (f := fun a => b.bal a d) (fun x _ => hn x d) ha
  · rw [h0 a ha]; exact Finset.sum_nonneg (fun x _ => hn x d)

/-! ### Bulk operations -/

/-- The total effect of a list of transfers. -/
def totalEffect (ts : List SendTx) (a : Addr) (d : Denom) : Int := (ts.map (fun t => transferEffect t a d)).sum

theorem sendAll_some : ∀ {ts : List SendTx} {b b' : Bank}, sendAll ts b = some b' →
    b'.supply = b.supply ∧ (∀ a d, b'.bal a d = b.bal a d + totalEffect ts a d) ∧ ∀ t ∈ ts, ∀ c ∈ t.amt, 0 ≤ c.amt := by
  intro ts
  induction ts with
  | nil => intro b b' h; simp only [sendAll, Option.some.injEq] at h; subst h; exact ⟨rfl, by simp [totalEffect], by simp⟩
  | cons t ts ih =>
    intro b b' h
    simp only [sendAll, Option.bind_eq_some_iff] at h
    obtain ⟨b1, h1, h2⟩ := h
    obtain ⟨g1, _, g3, g4⟩ := send_some h1
    obtain ⟨i1, i2, i3⟩ := ih h2
    refine ⟨i1.trans g3, ?_, ?_⟩
    · intro a d
      rw [i2, g4]
      simp only [totalEffect, List.map_cons, List.sum_cons]; ring
    · intro t' ht'
      rcases List.mem_cons.1 ht' with rfl | ht'
      · exact g1
      · exact i3 t' ht'

theorem run_eq_sendAll : ∀ (op : BulkOp) (b : Bank), op.run b = sendAll op b := by
  intro op
  induction op with
  | nil => intro b; rfl
  | cons t ts ih =>
    intro b
    simp only [BulkOp.run, sendAll]
    congr 1
    funext b'
    exact ih b'

theorem effect_append (src dst : Addr) (x y : Coins) (a : Addr) (d : Denom) :
    transferEffect ⟨src, dst, x ++ y⟩ a d = transferEffect ⟨src, dst, x⟩ a d + transferEffect ⟨src, dst, y⟩ a d := by
  simp only [transferEffect, amountOf_append]
  split <;> split <;> ring

theorem add_effect (op : BulkOp) (src dst : Addr) (cs : Coins) (a : Addr) (d : Denom) :
    totalEffect (op.add src dst cs) a d = totalEffect op a d + transferEffect ⟨src, dst, cs⟩ a d := by
  induction op with
  | nil => simp [BulkOp.add, totalEffect]
  | cons t ts ih =>
    unfold BulkOp.add
    split
    · rename_i e
      obtain ⟨e1, e2⟩ := e
      obtain ⟨s, dd, am⟩ := t
      simp only at e1 e2
      subst e1 e2
      simp only [totalEffect, List.map_cons, List.sum_cons]
      rw [effect_append]; ring
    · simp only [totalEffect, List.map_cons, List.sum_cons] at ih ⊢
      rw [ih]; ring

theorem effect_zero {src dst : Addr} {cs : Coins} (h : cs.all (fun c => c.amt == 0) = true) (a : Addr) (d : Denom) :
    transferEffect ⟨src, dst, cs⟩ a d = 0 := by
  have h0 : amountOf cs d = 0 := amountOf_zero (fun c hc => by simpa using List.all_eq_true.1 h c hc) d
  simp [transferEffect, h0]

theorem queue_effect (op : BulkOp) (src dst : Addr) (cs : Coins) (a : Addr) (d : Denom) :
    totalEffect (op.queue src dst cs) a d = totalEffect op a d + transferEffect ⟨src, dst, cs⟩ a d := by
  unfold BulkOp.queue
  split
  · rename_i h; rw [effect_zero h]; ring
  · exact add_effect op src dst cs a d

theorem run_some {op : BulkOp} {b b' : Bank} (h : op.run b = some b') :
    b'.supply = b.supply ∧ (∀ a d, b'.bal a d = b.bal a d + totalEffect op a d) ∧ ∀ t ∈ op, ∀ c ∈ t.amt, 0 ≤ c.amt := by
  rw [run_eq_sendAll] at h; exact sendAll_some h

theorem run_nonneg : ∀ {op : BulkOp} {b b' : Bank}, NonNegative b → op.run b = some b' → NonNegative b' := by
  intro op
  induction op with
  | nil => intro b b' hb h; simp only [BulkOp.run, Option.some.injEq] at h; rwa [← h]
  | cons t ts ih =>
    intro b b' hb h
    simp only [BulkOp.run, Option.bind_eq_some_iff] at h
    obtain ⟨b1, h1, h2⟩ := h
    exact ih (send_nonneg hb h1) h2

theorem run_supply : ∀ {op : BulkOp} {b b' : Bank}, SupplyIsSum b → op.run b = some b' → SupplyIsSum b' := by
  intro op
  induction op with
  | nil => intro b b' hb h; simp only [BulkOp.run, Option.some.injEq] at h; rwa [← h]
  | cons t ts ih =>
    intro b b' hb h
    simp only [BulkOp.run, Option.bind_eq_some_iff] at h
    obtain ⟨b1, h1, h2⟩ := h
    exact ih (send_supply hb h1) h2

theorem mem_add {op : BulkOp} {src dst : Addr} {cs : Coins} {t : SendTx} (h : t ∈ op.add src dst cs) :
    (t.src = src ∧ t.dst = dst) ∨ t ∈ op := by
  induction op with
  | nil => simp [BulkOp.add] at h; subst h; exact Or.inl ⟨rfl, rfl⟩
  | cons u us ih =>
    unfold BulkOp.add at h
    split at h
    · rename_i e
      rcases List.mem_cons.1 h with rfl | h
      · exact Or.inl e
      · exact Or.inr (List.mem_cons_of_mem _ h)
    · rcases List.mem_cons.1 h with rfl | h
      · exact Or.inr (by simp)
      · rcases ih h with h | h
        · exact Or.inl h
        · exact Or.inr (List.mem_cons_of_mem _ h)

theorem mem_queue {op : BulkOp} {src dst : Addr} {cs : Coins} {t : SendTx} (h : t ∈ op.queue src dst cs) :
    (t.src = src ∧ t.dst = dst) ∨ t ∈ op := by
  unfold BulkOp.queue at h
  split at h
  · exact Or.inr h
  · exact mem_add h

/-- Accounts that are the source of no queued transfer lose nothing. -/
theorem run_mono : ∀ {op : BulkOp} {b b' : Bank}, op.run b = some b' → ∀ {a : Addr}, (∀ t ∈ op, t.src ≠ a) →
    ∀ d, b.bal a d ≤ b'.bal a d := by
  intro op
  induction op with
  | nil => intro b b' h a _ d; simp only [BulkOp.run, Option.some.injEq] at h; rw [h]
  | cons t ts ih =>
    intro b b' h a ha d
    simp only [BulkOp.run, Option.bind_eq_some_iff] at h
    obtain ⟨b1, h1, h2⟩ := h
    exact le_trans (send_mono h1 (Ne.symm (ha t (by simp))) d) (ih h2 (fun t ht => ha t (by simp [ht])) d)

end Verif.Dex

namespace Verif.Dex
open Verif.Spec

/-- What account `a` pays in denom `d`. -/
def outflow (ts : List SendTx) (a : Addr) (d : Denom) : Int :=
  (ts.map (fun t => if a = t.src then amountOf t.amt d else 0)).sum

theorem outflow_cons (t : SendTx) (ts : List SendTx) (a : Addr) (d : Denom) :
    outflow (t :: ts) a d = (if a = t.src then amountOf t.amt d else 0) + outflow ts a d := by simp [outflow]

theorem outflow_nonneg {ts : List SendTx} (h : ∀ t ∈ ts, ∀ c ∈ t.amt, 0 ≤ c.amt) (a : Addr) (d : Denom) :
    0 ≤ outflow ts a d := by
  unfold outflow
  apply List.sum_nonneg
  intro x hx
  obtain ⟨t, ht, rfl⟩ := List.mem_map.1 hx
  split
  · exact amountOf_nonneg (h t ht) d
  · exact le_refl _

/-- Covered outflows and no chaining: every transfer succeeds. -/
theorem sendAll_isSome : ∀ {ts : List SendTx} {b : Bank}, (∀ t ∈ ts, ∀ c ∈ t.amt, 0 ≤ c.amt) →
    (∀ a d, (∃ t ∈ ts, t.src = a) → outflow ts a d ≤ b.bal a d) → ∃ b', sendAll ts b = some b' := by
  intro ts
  induction ts with
  | nil => intro b _ _; exact ⟨b, rfl⟩
  | cons t ts ih =>
    intro b h1 h2
    have ht := h1 t (by simp)
    have hts : ∀ u ∈ ts, ∀ c ∈ u.amt, 0 ≤ c.amt := fun u hu => h1 u (by simp [hu])
    obtain ⟨b1, hb1⟩ : ∃ b', b.send t.src t.dst t.amt = some b' := by
      apply send_isSome ht
      intro c hc
      have := h2 t.src c.denom ⟨t, by simp, rfl⟩
      rw [outflow_cons] at this
      have h0 := outflow_nonneg hts t.src c.denom
      simp only [if_true] at this
      omega
    obtain ⟨b2, hb2⟩ := ih (b := b1) hts (by
      rintro a d ⟨u, hu, rfl⟩
      have := h2 u.src d ⟨u, by simp [hu], rfl⟩
      rw [outflow_cons] at this
      obtain ⟨g1, _, _, g4⟩ := send_some hb1
      rw [g4]
      unfold transferEffect
      have hn := amountOf_nonneg g1 d
      simp only
      split <;> split <;> simp_all <;> omega)
    exact ⟨b2, by simp [sendAll, hb1, hb2]⟩

theorem totalEffect_src {ts : List SendTx} {a : Addr} (h : ∀ t ∈ ts, t.dst ≠ a) (d : Denom) :
    totalEffect ts a d = - outflow ts a d := by
  induction ts with
  | nil => simp [totalEffect, outflow]
  | cons t ts ih =>
    rw [outflow_cons]
    have := ih (fun u hu => h u (by simp [hu]))
    simp only [totalEffect, List.map_cons, List.sum_cons] at this ⊢
    rw [this]
    have hd : a ≠ t.dst := fun e => h t (by simp) e.symm
    simp only [transferEffect, if_neg hd]; ring

theorem add_outflow (op : BulkOp) (src dst : Addr) (cs : Coins) (a : Addr) (d : Denom) :
    outflow (op.add src dst cs) a d = outflow op a d + (if a = src then amountOf cs d else 0) := by
  induction op with
  | nil => simp [BulkOp.add, outflow]
  | cons t ts ih =>
    unfold BulkOp.add
    split
    · rename_i e
      obtain ⟨e1, e2⟩ := e
      simp only [outflow_cons, amountOf_append, e1]
      split <;> ring
    · simp only [outflow_cons, ih]; ring

theorem queue_outflow (op : BulkOp) (src dst : Addr) (cs : Coins) (a : Addr) (d : Denom) :
    outflow (op.queue src dst cs) a d = outflow op a d + (if a = src then amountOf cs d else 0) := by
  unfold BulkOp.queue
  split
  · rename_i h
    have h0 : amountOf cs d = 0 := amountOf_zero (fun c hc => by simpa using List.all_eq_true.1 h c hc) d
    simp [h0]
  · exact add_outflow op src dst cs a d

theorem add_coins_nonneg {op : BulkOp} {src dst : Addr} {cs : Coins} (h : ∀ t ∈ op, ∀ c ∈ t.amt, 0 ≤ c.amt)
    (hc : ∀ c ∈ cs, 0 ≤ c.amt) : ∀ t ∈ op.add src dst cs, ∀ c ∈ t.amt, 0 ≤ c.amt := by
  induction op with
  | nil => intro t ht; simp [BulkOp.add] at ht; subst ht; exact hc
  | cons u us ih =>
    intro t ht
    unfold BulkOp.add at ht
    split at ht
    · rcases List.mem_cons.1 ht with rfl | ht
      · intro c hcm
        rcases List.mem_append.1 hcm with h1 | h1
        · exact h u (by simp) c h1
        · exact hc c h1
      · exact h t (by simp [ht])
    · rcases List.mem_cons.1 ht with rfl | ht
      · exact h t (by simp)
      · exact ih (fun v hv => h v (by simp [hv])) t ht

theorem queue_coins_nonneg {op : BulkOp} {src dst : Addr} {cs : Coins} (h : ∀ t ∈ op, ∀ c ∈ t.amt, 0 ≤ c.amt)
    (hc : ∀ c ∈ cs, 0 ≤ c.amt) : ∀ t ∈ op.queue src dst cs, ∀ c ∈ t.amt, 0 ≤ c.amt := by
  unfold BulkOp.queue
  split
  · exact h
  · exact add_coins_nonneg h hc

/-- All transfers of a list, queued. -/
def queueAll (ts : List SendTx) (op : BulkOp) : BulkOp := ts.foldl (fun op t => op.queue t.src t.dst t.amt) op

theorem queueAll_effect (ts : List SendTx) : ∀ (op : BulkOp) (a : Addr) (d : Denom),
    totalEffect (queueAll ts op) a d = totalEffect op a d + totalEffect ts a d := by
  induction ts with
  | nil => intro op a d; simp [queueAll, totalEffect]
  | cons t ts ih =>
    intro op a d
    have h := ih (op.queue t.src t.dst t.amt) a d
    simp only [queueAll, List.foldl_cons] at h ⊢
    rw [h, queue_effect]
    simp only [totalEffect, List.map_cons, List.sum_cons]; ring

theorem queueAll_outflow (ts : List SendTx) : ∀ (op : BulkOp) (a : Addr) (d : Denom),
    outflow (queueAll ts op) a d = outflow op a d + outflow ts a d := by
  induction ts with
  | nil => intro op a d; simp [queueAll, outflow]
  | cons t ts ih =>
    intro op a d
    have h := ih (op.queue t.src t.dst t.amt) a d
    simp only [queueAll, List.foldl_cons] at h ⊢
    rw [h, queue_outflow, outflow_cons]; ring

theorem queueAll_nonneg (ts : List SendTx) : ∀ (op : BulkOp), (∀ t ∈ op, ∀ c ∈ t.amt, 0 ≤ c.amt) →
    (∀ t ∈ ts, ∀ c ∈ t.amt, 0 ≤ c.amt) → ∀ t ∈ queueAll ts op, ∀ c ∈ t.amt, 0 ≤ c.amt := by
  induction ts with
  | nil => intro op h _; exact h
  | cons t ts ih =>
    intro op h1 h2
    exact ih _ (queue_coins_nonneg h1 (h2 t (by simp))) (fun u hu => h2 u (by simp [hu]))

theorem queueAll_src (ts : List SendTx) : ∀ (op : BulkOp) (t : SendTx), t ∈ queueAll ts op →
    (∃ u ∈ op, u.src = t.src) ∨ ∃ u ∈ ts, u.src = t.src := by
  induction ts with
  | nil => intro op t h; exact Or.inl ⟨t, h, rfl⟩
  | cons v ts ih =>
    intro op t h
    rcases ih _ t h with ⟨u, hu, e⟩ | ⟨u, hu, e⟩
    · rcases mem_queue hu with ⟨e1, _⟩ | hu
      · exact Or.inr ⟨v, by simp, by rw [← e, e1]⟩
      · exact Or.inl ⟨u, hu, e⟩
    · exact Or.inr ⟨u, by simp [hu], e⟩

end Verif.Dex

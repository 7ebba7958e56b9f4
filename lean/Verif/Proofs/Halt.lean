import Verif.Proofs.Escrow
/-! # Loops of a batch that do not fail (C61) -/
namespace Verif.Dex
open Verif Verif.Amm Verif.Spec

variable {s s' : State}

/-- A loop whose every step succeeds and keeps an invariant. -/
theorem forEach_total {α σ : Type} {f : α → σ → Option σ} (P : List α → σ → Prop)
    (hstep : ∀ x xs s, P (x :: xs) s → ∃ s', f x s = some s' ∧ P xs s') :
    ∀ (l : List α) (s : σ), P l s → ∃ s', forEach f l s = some s' ∧ P [] s' := by
  intro l
  induction l with
  | nil => intro s h; exact ⟨s, rfl, h⟩
  | cons x xs ih =>
    intro s h
    obtain ⟨t, e, ht⟩ := hstep x xs s h
    obtain ⟨s', e', hs'⟩ := ih t ht
    exact ⟨s', by simp only [forEach, e, Option.bind_some]; exact e', hs'⟩

theorem single_le_total {α : Type} {f : α → Int} : ∀ {l : List α} {x : α}, (∀ y ∈ l, 0 ≤ f y) → x ∈ l → f x ≤ total f l := by
  intro l
  induction l with
  | nil => intro x _ h; cases h
  | cons a l ih =>
    intro x h hx
    have h1 : 0 ≤ f a := h a (by simp)
    have h2 : 0 ≤ total f l := total_nonneg' (fun y hy => h y (by simp [hy]))
    have h3 : total f (a :: l) = f a + total f l := by unfold total; simp
    rcases List.mem_cons.1 hx with rfl | hx
    · omega
    · have := ih (fun y hy => h y (by simp [hy])) hx
      omega

/-- The escrow account covers an unfinished order of a covered pair, and `slack` more. -/
theorem escrow_holds (hw : WF s) {o : OrderRec} (ho : o ∈ s.orders) (hd : o.done = false) :
    o.remaining + escrowSlack s o.pairId o.offerDenom ≤ s.bank.bal (.pairEscrow o.pairId) o.offerDenom := by
  have h := single_le_total (f := fun x : OrderRec => if x.pairId = o.pairId ∧ x.offerDenom = o.offerDenom ∧ Unfinished x then x.remaining else 0)
    (l := s.orders) (x := o) (fun y hy => by
      show (0 : Int) ≤ if _ then _ else _
      split
      · exact (hw.ordsOk y hy).1
      · exact le_refl _) ho
  simp only [true_and, if_pos ((done_iff o).1 hd)] at h
  unfold escrowSlack
  omega

theorem finish_total (hw : WF s) {o : OrderRec} {status : OStatus} (ho : o ∈ s.orders)
    (hc : 0 ≤ ledger s (.pairEscrow o.pairId) o.offerDenom) : ∃ s', finishOrder o status s = some s' := by
  cases hd : o.done with
  | true =>
    have hd' : o.status.shouldBeDeleted = true := hd
    exact ⟨s, by unfold finishOrder; rw [if_pos hd']⟩
  | false =>
    rw [ledger_escrow] at hc
    have := escrow_holds hw ho hd
    exact finishOrder_isSome hw ho (by omega)

theorem collect_total (hw : WF s) (pid : Nat) (hc : ∀ d, 0 ≤ escrowSlack s pid d) :
    ∃ st, forEach collectOrder (s.ordersOf pid) (s, []) = some st := by
  obtain ⟨st, e, _⟩ := forEach_total (f := collectOrder)
    (fun xs t => Collecting pid s xs t ∧ ∀ d, 0 ≤ ledger t.1 (.pairEscrow pid) d) (by
      rintro x xs t ⟨hC, hl⟩
      have hs : ∃ t', collectOrder x t = some t' := by
        have hx : x ∈ t.1.orders := hC.pending.2 x (by simp)
        have hp : x.pairId = pid := hC.mine x (by simp)
        unfold collectOrder
        split
        · split
          · obtain ⟨t', e⟩ := finish_total (status := .expired) hC.wf hx (by rw [hp]; exact hl _)
            exact ⟨_, by rw [e]; rfl⟩
          · exact ⟨_, rfl⟩
        · exact ⟨_, rfl⟩
      obtain ⟨t', e⟩ := hs
      exact ⟨t', e, collect_step hC e, fun d => by rw [collect_step_ledger hC e]; exact hl d⟩) _ _
    ⟨collect_init hw pid, fun d => by rw [ledger_escrow]; exact hc d⟩
  exact ⟨st, e⟩

theorem expire_total (hw : WF s) (hc : ∀ p ∈ s.pairs, ∀ d, 0 ≤ escrowSlack s p.id d) :
    ∃ s', forEach expireOrder s.orders s = some s' := by
  obtain ⟨st, e, _⟩ := forEach_total (f := expireOrder)
    (fun xs t => ((∀ x ∈ xs, x ∈ s.orders) ∧ Expiring s xs t) ∧ ∀ p ∈ s.pairs, ∀ d, 0 ≤ ledger t (.pairEscrow p.id) d) (by
      rintro x xs t ⟨⟨h1, hE⟩, hl⟩
      have hx : x ∈ t.orders := hE.pending.2 x (by simp)
      have hfin : ∃ t', finishOrder x .expired t = some t' := by
        obtain ⟨_, _, p, hp, e1, _⟩ := hw.ords x (h1 x (by simp))
        exact finish_total hE.wf hx (by rw [← e1]; exact hl p hp _)
      have hs : ∃ t', expireOrder x t = some t' := by
        unfold expireOrder
        split
        · exact hfin
        · split
          · exact hfin
          · exact ⟨_, rfl⟩
      obtain ⟨t', e⟩ := hs
      exact ⟨t', e, ⟨fun y hy => h1 y (by simp [hy]), expire_step hE (h1 x (by simp)) e⟩,
        fun p hp d => by rw [expire_step_ledger hE e]; exact hl p hp d⟩) _ _
    ⟨⟨fun x hx => hx, expire_init hw⟩, fun p hp d => by rw [ledger_escrow]; exact hc p hp d⟩
  exact ⟨st, e⟩

theorem collectPool_total {env : Env} {pair : Pair} (hw : WF s)
    (ha : ∀ pool ∈ s.pools, pool.pairId = pair.id → pool.disabled = false →
      (ammPool env pool (s.bank.bal (.poolReserve pool.id) pair.quote) (s.bank.bal (.poolReserve pool.id) pair.base)
        (s.bank.supply (.pool pool.id))).isSome) :
    ∃ st, forEach (collectPool env pair) (s.poolsOf pair.id) (s, []) = some st := by
  obtain ⟨st, e, _⟩ := forEach_total (f := collectPool env pair)
    (fun xs t => t.1.bank = s.bank ∧ ∀ x ∈ xs, x ∈ s.pools ∧ x.pairId = pair.id) (by
      rintro x xs t ⟨hb, hx⟩
      have hx' := hx x (by simp)
      have hs : ∃ t', collectPool env pair x t = some t' ∧ t'.1.bank = t.1.bank := by
        unfold collectPool
        split
        · exact ⟨_, rfl, rfl⟩
        · rename_i hdis
          have h1 := ha x hx'.1 hx'.2 (by simpa using hdis)
          have e1 : t.1.poolRx x pair = s.bank.bal (.poolReserve x.id) pair.quote := by unfold State.poolRx; rw [hb]
          have e2 : t.1.poolRy x pair = s.bank.bal (.poolReserve x.id) pair.base := by unfold State.poolRy; rw [hb]
          have e3 : t.1.poolSupply x = s.bank.supply (.pool x.id) := by unfold State.poolSupply; rw [hb]
          obtain ⟨ap, hap⟩ := Option.isSome_iff_exists.1 h1
          rw [e1, e2, e3, hap]
          simp only
          split
          · exact ⟨_, rfl, rfl⟩
          · exact ⟨_, rfl, rfl⟩
      obtain ⟨t', e, hb'⟩ := hs
      exact ⟨t', e, hb'.trans hb, fun y hy => hx y (by simp [hy])⟩) (s.poolsOf pair.id) (s, [])
    ⟨rfl, fun x hx => by
      have := List.mem_filter.1 hx
      exact ⟨this.1, by simpa using this.2⟩⟩
  exact ⟨st, e⟩

end Verif.Dex

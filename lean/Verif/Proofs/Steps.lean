import Verif.Proofs.DecompBatch
import Verif.Spec.State
/-! # Histories -/
namespace Verif.Dex
open Verif Verif.Amm Verif.Spec

variable {s s' : State}

theorem genesis_wf (h : Genesis s) : WF s where
  pairsS := by rw [h.pairs]; exact List.Pairwise.nil
  poolsS := by rw [h.pools]; exact List.Pairwise.nil
  depsS := by rw [h.deposits]; exact List.Pairwise.nil
  wdsS := by rw [h.withdraws]; exact List.Pairwise.nil
  ordersS := by rw [h.orders]; exact List.Pairwise.nil
  pairIds := by rw [h.pairs]; simp
  pairAll := by intro id h1 h2; rw [h.lastPairId] at h2; omega
  pairNe := by rw [h.pairs]; simp
  pairUniq := by rw [h.pairs]; simp
  poolIds := by rw [h.pools]; simp
  poolAll := by intro id h1 h2; rw [h.lastPoolId] at h2; omega
  deps := by rw [h.deposits]; simp
  wds := by rw [h.withdraws]; simp
  ords := by rw [h.orders]; simp
  ordsOk := by rw [h.orders]; simp
  mm := by intro a p; rw [h.numMM, h.orders]; simp [liveMM]
  bankNN := h.nonneg
  bankSum := h.sum
  noSupply := fun id _ => h.noPoolCoin id
  activeSupply := by rw [h.pools]; simp
  escrow := by
    intro d; rw [h.deposits, h.withdraws]
    simp only [pendingDeposits, pendingWithdraws, List.map_nil, List.sum_nil, add_zero]
    exact h.nonneg _ _
  basicUniq := by rw [h.pools]; simp

theorem setParams_wf (h : WF s) (p : Params) : WF { s with params := p } := { h with }

theorem sum_filter_zero {α : Type} (f : α → Int) (p : α → Bool) : ∀ l : List α, (∀ x ∈ l, p x = false → f x = 0) →
    ((l.filter p).map f).sum = (l.map f).sum := by
  intro l
  induction l with
  | nil => simp
  | cons a l ih =>
    intro h
    have ih := ih (fun x hx => h x (by simp [hx]))
    by_cases e : p a = true
    · simp [e, ih]
    · have := h a (by simp) (by simpa using e)
      simp [e, ih, this]

theorem beginBlock_wf (h : WF s) (height : Nat) (time : Int) : WF (beginBlock height time s) where
  pairsS := h.pairsS
  poolsS := h.poolsS
  depsS := h.depsS.filter _
  wdsS := h.wdsS.filter _
  ordersS := h.ordersS.filter _
  pairIds := h.pairIds
  pairAll := h.pairAll
  pairNe := h.pairNe
  pairUniq := h.pairUniq
  poolIds := h.poolIds
  poolAll := h.poolAll
  deps := fun r hr => h.deps r (List.mem_filter.1 hr).1
  wds := fun r hr => h.wds r (List.mem_filter.1 hr).1
  ords := fun r hr => h.ords r (List.mem_filter.1 hr).1
  ordsOk := fun r hr => h.ordsOk r (List.mem_filter.1 hr).1
  mm := by
    intro a p
    have e : liveMM (beginBlock height time s).orders a p = liveMM s.orders a p := by
      show (s.orders.filter _).countP _ = _
      rw [List.countP_filter]
      unfold liveMM
      congr 1
      funext o
      unfold OrderRec.done
      cases o.status.shouldBeDeleted <;> simp
    rw [e]
    exact h.mm a p
  bankNN := h.bankNN
  bankSum := h.bankSum
  noSupply := h.noSupply
  activeSupply := h.activeSupply
  escrow := by
    intro d
    have e1 : pendingDeposits (beginBlock height time s).deposits d = pendingDeposits s.deposits d := by
      refine sum_filter_zero _ _ _ ?_
      intro r _ hr
      rw [if_neg]
      intro e; rw [e] at hr; cases hr
    have e2 : pendingWithdraws (beginBlock height time s).withdraws d = pendingWithdraws s.withdraws d := by
      refine sum_filter_zero _ _ _ ?_
      intro r _ hr
      rw [if_neg]
      intro e; rw [e] at hr; cases hr
    rw [e1, e2]
    exact h.escrow d
  basicUniq := h.basicUniq

theorem tx_reach {valid : Bool} {handler : State → Option State}
    (h : ∀ s', valid = true → handler s = some s' → Reach s s') : Reach s (tx valid handler s) := by
  unfold tx
  split
  · rename_i hv
    cases e : handler s with
    | none => exact Relation.ReflTransGen.refl
    | some t => exact h t hv e
  · exact Relation.ReflTransGen.refl

theorem tx_cases {valid : Bool} {handler : State → Option State} {s : State} :
    tx valid handler s = s ∨ (valid = true ∧ handler s = some (tx valid handler s)) := by
  unfold tx
  cases valid with
  | false => exact Or.inl rfl
  | true =>
    simp only [if_true, true_and]
    cases e : handler s with
    | none => exact Or.inl rfl
    | some t => exact Or.inr rfl

/-- Every step is a sequence of elementary changes, a parameter change or the start of a block. -/
theorem step_cases (hw : WF s) {env : Env} {op : Op} (h : step env op s = some s') :
    Reach s s' ∨ (∃ p, op = .setParams p ∧ p.validate = true ∧ s' = { s with params := p }) ∨
      (∃ height time, op = .beginBlock height time ∧ s' = beginBlock height time s) := by
  cases op with
  | createPair m => cases h; exact Or.inl (tx_reach (fun _ hv e => createPair_reach hv e))
  | createPool m => cases h; exact Or.inl (tx_reach (fun _ _ e => createPool_reach hw e))
  | createRangedPool m => cases h; exact Or.inl (tx_reach (fun _ _ e => createRangedPool_reach hw e))
  | deposit m => cases h; exact Or.inl (tx_reach (fun _ hv e => depositMsg_reach hw hv e))
  | withdraw m => cases h; exact Or.inl (tx_reach (fun _ hv e => withdrawMsg_reach hw hv e))
  | limitOrder m => cases h; exact Or.inl (tx_reach (fun _ _ e => placeOrder_reach hw (by simp) e))
  | marketOrder m => cases h; exact Or.inl (tx_reach (fun _ _ e => placeOrder_reach hw (by simp) e))
  | mmOrder m => cases h; exact Or.inl (tx_reach (fun _ _ e => mmOrder_reach hw e))
  | cancelOrder m => cases h; exact Or.inl (tx_reach (fun _ _ e => cancelOrder_reach hw e))
  | cancelAllOrders m => cases h; exact Or.inl (tx_reach (fun _ _ e => cancelAll_reach hw e))
  | transfer src dst cs =>
    cases h
    refine Or.inl (tx_reach (fun t _ e => ?_))
    rw [Option.map_eq_some_iff] at e
    obtain ⟨b, hb, rfl⟩ := e
    exact Reach.single (.bank b (bankStep_send hb) (fun d => send_mono hb (by simp) d))
  | setParams p =>
    cases h
    rcases tx_cases (valid := p.validate) (handler := fun s => some { s with params := p }) (s := s) with e | ⟨e1, e2⟩
    · rw [e]; exact Or.inl Relation.ReflTransGen.refl
    · exact Or.inr (Or.inl ⟨p, rfl, e1, (Option.some.inj e2).symm⟩)
  | beginBlock height time => cases h; exact Or.inr (Or.inr ⟨height, time, rfl, rfl⟩)
  | endBlock =>
    refine Or.inl ?_
    simp only [step, endBlock] at h
    split at h
    · cases h
    · split at h
      · exact (executeRequests_spec hw h).reach
      · cases h; exact Relation.ReflTransGen.refl

theorem step_wf (hw : WF s) {env : Env} {op : Op} (h : step env op s = some s') : WF s' := by
  rcases step_cases hw h with h | ⟨p, _, _, rfl⟩ | ⟨a, b, _, rfl⟩
  · exact reach_wf hw h
  · exact setParams_wf hw p
  · exact beginBlock_wf hw a b

theorem run_wf {env : Env} : ∀ {ops : List Op} {s s' : State}, WF s → run env ops s = some s' → WF s' := by
  intro ops
  induction ops with
  | nil => intro s s' hw h; cases h; exact hw
  | cons op ops ih =>
    intro s s' hw h
    simp only [run, Option.bind_eq_some_iff] at h
    obtain ⟨t, h1, h2⟩ := h
    exact ih (step_wf hw h1) h2

theorem _root_.Verif.Spec.Reachable.wf {env : Env} (h : Reachable env s) : WF s := by
  obtain ⟨s0, ops, h0, h1⟩ := h
  exact run_wf (genesis_wf h0) h1

theorem run_append {env : Env} : ∀ (ops ops' : List Op) (s : State), run env (ops ++ ops') s = (run env ops s).bind (run env ops') := by
  intro ops
  induction ops with
  | nil => intro ops' s; rfl
  | cons op ops ih =>
    intro ops' s
    simp only [List.cons_append, run]
    cases step env op s with
    | none => rfl
    | some t => exact ih ops' t

theorem _root_.Verif.Spec.Reachable.run {env : Env} {ops : List Op} (h : Reachable env s) (hr : run env ops s = some s') : Reachable env s' := by
  obtain ⟨s0, ops0, h0, h1⟩ := h
  exact ⟨s0, ops0 ++ ops, h0, by rw [run_append, h1]; exact hr⟩

/-- A reflexive and transitive relation that every elementary change, parameter change and block start respects holds between
the ends of a history. -/
theorem run_rel {R : State → State → Prop} (hrefl : ∀ s, R s s) (htrans : ∀ a b c, R a b → R b c → R a c)
    (hatom : ∀ a b, WF a → Atom a b → R a b) (hset : ∀ a p, WF a → p.validate = true → R a { a with params := p })
    (hbegin : ∀ a height time, WF a → R a (beginBlock height time a)) {env : Env} :
    ∀ {ops : List Op} {s s' : State}, WF s → run env ops s = some s' → R s s' := by
  intro ops
  induction ops with
  | nil => intro s s' hw h; cases h; exact hrefl _
  | cons op ops ih =>
    intro s s' hw h
    simp only [run, Option.bind_eq_some_iff] at h
    obtain ⟨t, h1, h2⟩ := h
    refine htrans _ t _ ?_ (ih (step_wf hw h1) h2)
    rcases step_cases hw h1 with h | ⟨p, _, _, rfl⟩ | ⟨a, b, _, rfl⟩
    · exact reach_rel hrefl htrans hatom hw h
    · exact hset s p hw ‹_›
    · exact hbegin s a b hw

end Verif.Dex

import Verif.Spec.Events
import Verif.Proofs.Evolve
/-!
# The events and the stored records

`Tells`: what a client knows from the log fits the stored records.  The three kinds of records (orders, deposit requests, withdraw
requests) share it.
-/
namespace Verif.Dex
open Verif Verif.Amm Verif.Spec

/-! ## A client of one kind of records -/

section
variable {ρ α : Type} {rd : Key → Told α → Event → Told α} {key : ρ → Key} {view : ρ → α} {Cl : α → Prop}

/-- What the clients know after a log fits the records `L`; ids satisfying `F` have not been given out. -/
structure Tells (rd : Key → Told α → Event → Told α) (key : ρ → Key) (view : ρ → α) (Cl : α → Prop) (L : List ρ)
    (F : Key → Prop) (log : List Event) : Prop where
  here : ∀ r ∈ L, log.foldl (rd (key r)) .unknown = .knows (view r)
  gone : ∀ k, (∀ r ∈ L, key r ≠ k) → log.foldl (rd k) .unknown = .unknown ∨ ∃ v, log.foldl (rd k) .unknown = .knows v ∧ Cl v
  new : ∀ k, F k → log.foldl (rd k) .unknown = .unknown

theorem Tells.neutral {L : List ρ} {F F' : Key → Prop} {log ev : List Event} (h : Tells rd key view Cl L F log)
    (hF : ∀ k, F' k → F k) (hq : ∀ k t, ev.foldl (rd k) t = t) : Tells rd key view Cl L F' (log ++ ev) where
  here := fun r hr => by rw [List.foldl_append, hq]; exact h.here r hr
  gone := fun k hk => by rw [List.foldl_append, hq]; exact h.gone k hk
  new := fun k hk => by rw [List.foldl_append, hq]; exact h.new k (hF k hk)

theorem Tells.update {L L' : List ρ} {F F' : Key → Prop} {log ev : List Event} (h : Tells rd key view Cl L F log)
    {o o' : ρ} (ho : o ∈ L) (hm : ∀ x, x ∈ L' ↔ x = o' ∨ (x ∈ L ∧ x ≠ o)) (hk : key o' = key o)
    (hinj : ∀ x ∈ L, key x = key o → x = o)
    (hF : ∀ k, F' k → F k) (he : ev.foldl (rd (key o)) (.knows (view o)) = .knows (view o'))
    (hq : ∀ k t, k ≠ key o → ev.foldl (rd k) t = t) : Tells rd key view Cl L' F' (log ++ ev) where
  here := fun r hr => by
    rw [List.foldl_append]
    rcases (hm r).1 hr with rfl | ⟨h1, h2⟩
    · rw [hk, h.here o ho, he]
    · rw [hq _ _ (fun e => h2 (hinj r h1 e))]; exact h.here r h1
  gone := fun k hk' => by
    have hne : k ≠ key o := fun e => hk' o' ((hm _).2 (Or.inl rfl)) (by rw [hk, e])
    rw [List.foldl_append, hq _ _ hne]
    refine h.gone k (fun r hr e => ?_)
    by_cases e2 : r = o
    · subst e2; exact hne e.symm
    · exact hk' r ((hm r).2 (Or.inr ⟨hr, e2⟩)) e
  new := fun k hk' => by
    have h1 := h.new k (hF k hk')
    have hne : k ≠ key o := fun e => by rw [e, h.here o ho] at h1; cases h1
    rw [List.foldl_append, hq _ _ hne]; exact h1

theorem Tells.add {L L' : List ρ} {F F' : Key → Prop} {log ev : List Event} (h : Tells rd key view Cl L F log)
    {o : ρ} (hm : ∀ x, x ∈ L' ↔ x = o ∨ (x ∈ L ∧ key x ≠ key o)) (hfresh : F (key o))
    (hF : ∀ k, F' k → F k ∧ k ≠ key o) (he : ev.foldl (rd (key o)) .unknown = .knows (view o))
    (hq : ∀ k t, k ≠ key o → ev.foldl (rd k) t = t) : Tells rd key view Cl L' F' (log ++ ev) where
  here := fun r hr => by
    rw [List.foldl_append]
    rcases (hm r).1 hr with rfl | ⟨h1, h2⟩
    · rw [h.new _ hfresh, he]
    · rw [hq _ _ h2]; exact h.here r h1
  gone := fun k hk' => by
    have hne : k ≠ key o := fun e => hk' o ((hm _).2 (Or.inl rfl)) e.symm
    rw [List.foldl_append, hq _ _ hne]
    refine h.gone k (fun r hr e => hk' r ((hm r).2 (Or.inr ⟨hr, fun e2 => hne (e ▸ e2)⟩)) e)
  new := fun k hk' => by
    rw [List.foldl_append, hq _ _ (hF k hk').2]; exact h.new k (hF k hk').1

theorem Tells.drop {L : List ρ} {F F' : Key → Prop} {log : List Event} (h : Tells rd key view Cl L F log) {P : ρ → Bool}
    (hF : ∀ k, F' k → F k) (hP : ∀ r ∈ L, P r = false → Cl (view r)) : Tells rd key view Cl (L.filter P) F' log where
  here := fun r hr => h.here r (List.mem_of_mem_filter hr)
  gone := fun k hk => by
    by_cases e : ∃ r ∈ L, key r = k
    · obtain ⟨r, hr, rfl⟩ := e
      cases hp : P r
      · exact Or.inr ⟨view r, h.here r hr, hP r hr hp⟩
      · exact absurd rfl (hk r (List.mem_filter.2 ⟨hr, hp⟩))
    · push Not at e; exact h.gone k e
  new := fun k hk => h.new k (hF k hk)

end

/-! ## The three kinds -/

/-- What an event is about. -/
inductive Topic where
  | order | deposit | withdraw | create | other
  deriving DecidableEq

def Event.topic : Event → Topic
  | .orderPlaced .. | .userMatched .. | .orderResult .. => .order
  | .deposit .. | .depositResult .. => .deposit
  | .withdraw .. | .withdrawResult .. => .withdraw
  | .createPair .. | .createPool .. => .create
  | _ => .other

theorem readOrder_off {p i : Nat} {t : Told KnownOrder} {e : Event} (h : e.topic ≠ .order) : readOrder p i t e = t := by
  cases e <;> first | rfl | exact absurd rfl h
theorem readDeposit_off {p i : Nat} {t : Told KnownDeposit} {e : Event} (h : e.topic ≠ .deposit) : readDeposit p i t e = t := by
  cases e <;> first | rfl | exact absurd rfl h
theorem readWithdraw_off {p i : Nat} {t : Told KnownWithdraw} {e : Event} (h : e.topic ≠ .withdraw) : readWithdraw p i t e = t := by
  cases e <;> first | rfl | exact absurd rfl h

theorem foldl_still {α : Type} {f : Told α → Event → Told α} : ∀ {ev : List Event} {t : Told α}, (∀ e ∈ ev, ∀ t, f t e = t) →
    ev.foldl f t = t
  | [], _, _ => rfl
  | e :: ev, t, h => by rw [List.foldl_cons, h e (by simp)]; exact foldl_still (fun e' he => h e' (by simp [he]))

/-- An id not yet given to an order. -/
def FreshOrder (s : State) (k : Key) : Prop := ∀ q ∈ s.pairs, q.id = k.1 → q.lastOrderId < k.2
/-- An id not yet given to a deposit request. -/
def FreshDeposit (s : State) (k : Key) : Prop := ∀ q ∈ s.pools, q.id = k.1 → q.lastDepositId < k.2
/-- An id not yet given to a withdraw request. -/
def FreshWithdraw (s : State) (k : Key) : Prop := ∀ q ∈ s.pools, q.id = k.1 → q.lastWithdrawId < k.2

def KnownDeposit.Closed (v : KnownDeposit) : Prop := v.result ≠ none
def KnownWithdraw.Closed (v : KnownWithdraw) : Prop := v.result ≠ none

def TellsO (s : State) : List Event → Prop :=
  Tells (fun k => readOrder k.1 k.2) OrderRec.key viewOf KnownOrder.Closed s.orders (FreshOrder s)
def TellsD (s : State) : List Event → Prop :=
  Tells (fun k => readDeposit k.1 k.2) DepReq.key viewOfDeposit KnownDeposit.Closed s.deposits (FreshDeposit s)
def TellsW (s : State) : List Event → Prop :=
  Tells (fun k => readWithdraw k.1 k.2) WdReq.key viewOfWithdraw KnownWithdraw.Closed s.withdraws (FreshWithdraw s)

variable {s s' : State} {log ev : List Event}

theorem freshOrder_back (h : Evolves s s') (k : Key) (hk : FreshOrder s' k) : FreshOrder s k := by
  intro q hq e
  obtain ⟨q', h1, h2, _, _, h3, _⟩ := h.pairs q hq
  have := hk q' h1 (h2.trans e)
  omega
theorem freshDeposit_back (h : Evolves s s') (k : Key) (hk : FreshDeposit s' k) : FreshDeposit s k := by
  intro q hq e
  obtain ⟨q', h1, h2, _, _, _, h3, _⟩ := h.pools q hq
  have := hk q' h1 (h2.trans e)
  omega
theorem freshWithdraw_back (h : Evolves s s') (k : Key) (hk : FreshWithdraw s' k) : FreshWithdraw s k := by
  intro q hq e
  obtain ⟨q', h1, h2, _, _, _, _, h3, _⟩ := h.pools q hq
  have := hk q' h1 (h2.trans e)
  omega

/-- Nothing happens to the orders. -/
theorem TellsO.neutral (h : TellsO s log) (he : Evolves s s') (ho : s'.orders = s.orders) (hev : ∀ e ∈ ev, e.topic ≠ .order) :
    TellsO s' (log ++ ev) := by
  unfold TellsO at *
  rw [ho]
  exact Tells.neutral h (freshOrder_back he) (fun _ _ => foldl_still (fun e h' _ => readOrder_off (hev e h')))
theorem TellsD.neutral (h : TellsD s log) (he : Evolves s s') (ho : s'.deposits = s.deposits) (hev : ∀ e ∈ ev, e.topic ≠ .deposit) :
    TellsD s' (log ++ ev) := by
  unfold TellsD at *
  rw [ho]
  exact Tells.neutral h (freshDeposit_back he) (fun _ _ => foldl_still (fun e h' _ => readDeposit_off (hev e h')))
theorem TellsW.neutral (h : TellsW s log) (he : Evolves s s') (ho : s'.withdraws = s.withdraws)
    (hev : ∀ e ∈ ev, e.topic ≠ .withdraw) : TellsW s' (log ++ ev) := by
  unfold TellsW at *
  rw [ho]
  exact Tells.neutral h (freshWithdraw_back he) (fun _ _ => foldl_still (fun e h' _ => readWithdraw_off (hev e h')))

/-- One order changes. -/
theorem TellsO.update (h : TellsO s log) (hw : WF s) (he : Evolves s s') {o o' : OrderRec} (ho : o ∈ s.orders)
    (hu : s'.orders = upsert OrderRec.key o' s.orders) (hk : o'.key = o.key)
    (hr : ev.foldl (readOrder o.pairId o.id) (.knows (viewOf o)) = .knows (viewOf o'))
    (hq : ∀ k : Key, k ≠ o.key → ∀ e ∈ ev, ∀ t, readOrder k.1 k.2 t e = t) : TellsO s' (log ++ ev) := by
  unfold TellsO at *
  refine Tells.update h (o := o) (o' := o') ho ?_ hk (fun x hx e => hw.ordersS.inj hx ho e) (freshOrder_back he) hr
    (fun k t hne => foldl_still (hq k hne))
  intro x
  rw [hu]
  exact hw.mem_setOrder ho hk

/-! ## Iterations -/

theorem eachEv_inv {α σ : Type} {f : α → σ → Option σ} {ev : α → σ → List Event} (P : List α → σ → List Event → Prop)
    (hstep : ∀ x xs s s' log, P (x :: xs) s log → f x s = some s' → P xs s' (log ++ ev x s)) :
    ∀ (l : List α) (s s' : σ) (log : List Event), P l s log → forEach f l s = some s' → P [] s' (log ++ eachEv f ev l s) := by
  intro l
  induction l with
  | nil =>
    intro s s' log h e
    simp only [forEach, Option.some.injEq] at e
    subst e
    simpa [eachEv] using h
  | cons x xs ih =>
    intro s s' log h e
    simp only [forEach, Option.bind_eq_some_iff] at e
    obtain ⟨s1, e1, e2⟩ := e
    have := ih s1 s' _ (hstep x xs s s1 log h e1) e2
    unfold eachEv
    rw [e1]
    simpa [List.append_assoc] using this

theorem eachEv_topic {α σ : Type} {f : α → σ → Option σ} {ev : α → σ → List Event} {Q : Event → Prop}
    (h : ∀ x s, ∀ e ∈ ev x s, Q e) : ∀ (l : List α) (s : σ), ∀ e ∈ eachEv f ev l s, Q e := by
  intro l
  induction l with
  | nil => intro s e he; simp [eachEv] at he
  | cons x xs ih =>
    intro s e he
    unfold eachEv at he
    split at he
    · simp at he
    · rcases List.mem_append.1 he with h1 | h1
      · exact h x s e h1
      · exact ih _ e h1

/-! ## Orders -/

theorem viewOf_live {o : OrderRec} (h : o.done = false) : (viewOf o).result = none := by
  unfold viewOf
  rcases status_cases h with e | e | e <;> simp [e]

theorem viewOf_closed {o : OrderRec} (h : o.done = true) : (viewOf o).Closed := by
  unfold OrderRec.done at h
  refine ⟨o.status, ?_, ?_⟩
  · cases e : o.status <;> simp [e, OStatus.shouldBeDeleted, OStatus.isCanceledOrExpired] at h ⊢
  · unfold viewOf
    cases e : o.status <;> simp [e, OStatus.shouldBeDeleted, OStatus.isCanceledOrExpired] at h ⊢

theorem finishOrderEv_live {o : OrderRec} {status : OStatus} (h : o.done = false) :
    finishOrderEv o status = [.orderResult o.dir o.orderer o.pairId o.id o.amount o.openAmt ⟨o.offerDenom, o.offer⟩
      ⟨o.offerDenom, o.remaining⟩ ⟨o.demandDenom, o.received⟩ status] := by
  unfold finishOrderEv
  unfold OrderRec.done at h
  rw [h]; rfl

theorem finishOrderEv_done {o : OrderRec} {status : OStatus} (h : o.done = true) : finishOrderEv o status = [] := by
  unfold finishOrderEv
  unfold OrderRec.done at h
  rw [h]; rfl

theorem finishOrderEv_topic {o : OrderRec} {status : OStatus} : ∀ e ∈ finishOrderEv o status, e.topic = .order := by
  intro e he
  unfold finishOrderEv at he
  split at he
  · simp at he
  · simp only [List.mem_singleton] at he; subst he; rfl

/-- Reading the result of the order `o`. -/
theorem read_result {o : OrderRec} {status : OStatus} (hd : o.done = false) (hst : status.shouldBeDeleted = true) :
    (finishOrderEv o status).foldl (readOrder o.pairId o.id) (.knows (viewOf o)) = .knows (viewOf { o with status }) := by
  rw [finishOrderEv_live hd]
  simp only [List.foldl_cons, List.foldl_nil, readOrder, and_self, if_true]
  rw [if_pos ⟨viewOf_live hd, rfl, rfl, rfl, rfl, rfl, rfl⟩]
  cases status <;> simp [OStatus.shouldBeDeleted, OStatus.isCanceledOrExpired] at hst <;> rfl

theorem result_off {o : OrderRec} {status : OStatus} {k : Key} (hk : k ≠ o.key) :
    ∀ e ∈ finishOrderEv o status, ∀ t, readOrder k.1 k.2 t e = t := by
  intro e he t
  unfold finishOrderEv at he
  split at he
  · simp at he
  · simp only [List.mem_singleton] at he
    subst he
    simp only [readOrder]
    rw [if_neg]
    rintro ⟨e1, e2⟩
    exact hk (by unfold OrderRec.key; rw [e1, e2])

/-- Finishing a stored order. -/
theorem tells_finish (h : TellsO s log) (hw : WF s) {o : OrderRec} {status : OStatus} (ho : o ∈ s.orders)
    (hst : status.shouldBeDeleted = true) (e : finishOrder o status s = some s') :
    TellsO s' (log ++ finishOrderEv o status) ∧ WF s' := by
  cases hd : o.done with
  | true =>
    rw [finishOrderEv_done hd, finishOrder_done hd e, List.append_nil]
    exact ⟨h, hw⟩
  | false =>
    have ha := finishOrder_atom ho hd (SameOrder.refl o) hd hst (hw.ordsOk o ho).1 e
    exact ⟨h.update hw (evolves_atom hw ha) ho (finishOrder_frame hd e).1 rfl (read_result hd hst) (fun k hk => result_off hk),
      atom_wf hw ha⟩

end Verif.Dex

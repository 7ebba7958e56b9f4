import Verif.Proofs.Market
import Verif.Proofs.DecompMatch
/-!
# One market among others: matching a pair
-/
namespace Verif.Dex
open Verif Verif.Amm Verif.Spec

variable {q : Nat} {Q : Nat → Bool} {s t s' t' : State}

/-- The same loop in two runs. -/
theorem forEach_rel {α σ τ : Type} {f : α → σ → Option σ} {g : α → τ → Option τ} {ok : α → Prop} {R : σ → τ → Prop}
    (hstep : ∀ x a b a' b', ok x → R a b → f x a = some a' → g x b = some b' → R a' b') :
    ∀ (l : List α) (a a' : σ) (b b' : τ), (∀ x ∈ l, ok x) → forEach f l a = some a' → forEach g l b = some b' → R a b → R a' b' := by
  intro l
  induction l with
  | nil =>
    intro a a' b b' _ e1 e2 h
    simp only [forEach, Option.some.injEq] at e1 e2
    subst e1 e2
    exact h
  | cons x l ih =>
    intro a a' b b' hl e1 e2 h
    rw [forEach] at e1 e2
    obtain ⟨a1, e3, e4⟩ := Option.bind_eq_some_iff.1 e1
    obtain ⟨b1, e5, e6⟩ := Option.bind_eq_some_iff.1 e2
    exact ih a1 a' b1 b' (fun y hy => hl y (by simp [hy])) e4 e6 (hstep x a b a1 b1 (hl x (by simp)) h e3 e5)

/-- A loop that keeps a property. -/
theorem forEach_keep {α σ : Type} {f : α → σ → Option σ} {ok : α → Prop} {R : σ → Prop}
    (hstep : ∀ x a a', ok x → R a → f x a = some a' → R a') :
    ∀ (l : List α) (a a' : σ), (∀ x ∈ l, ok x) → R a → forEach f l a = some a' → R a' := by
  intro l
  induction l with
  | nil =>
    intro a a' _ h e1
    simp only [forEach, Option.some.injEq] at e1
    exact e1 ▸ h
  | cons x l ih =>
    intro a a' hl h e1
    rw [forEach] at e1
    obtain ⟨a1, e3, e4⟩ := Option.bind_eq_some_iff.1 e1
    exact ih a1 a' (fun y hy => hl y (by simp [hy])) (hstep x a a1 (hl x (by simp)) h e3) e4

/-! ## Collecting the orders -/

theorem collectOrder_tidy {o : OrderRec} {l l' : List Order} (hs : Tidy q Q s) (e : collectOrder o (s, l) = some (s', l')) :
    Tidy q Q s' := by
  unfold collectOrder at e
  split at e
  · split at e
    · obtain ⟨s1, e1, e2⟩ := Option.map_eq_some_iff.1 e
      cases e2
      exact finishOrder_tidy hs e1
    · cases e
      split
      · exact hs.setOrder _
      · exact hs
  · cases e; exact hs

theorem collectOrder_slice {o : OrderRec} {l l' m' : List Order} (hs : Tidy q Q s) (ht : Tidy q Q t) (h : Slice q Q s t)
    (e1 : collectOrder o (s, l) = some (s', l')) (e2 : collectOrder o (t, l) = some (t', m')) : Slice q Q s' t' ∧ l' = m' := by
  unfold collectOrder at e1 e2
  by_cases c : o.status.isMatchable = true
  · rw [if_pos c] at e1 e2
    by_cases c2 : o.status ≠ .notExecuted ∧ o.expiredAt s.time = true
    · rw [if_pos c2] at e1
      rw [if_pos (by rw [← h.time]; exact c2)] at e2
      obtain ⟨s1, e3, e4⟩ := Option.map_eq_some_iff.1 e1
      obtain ⟨t1, e5, e6⟩ := Option.map_eq_some_iff.1 e2
      cases e4; cases e6
      exact ⟨finishOrder_slice hs ht h e3 e5, rfl⟩
    · rw [if_neg c2] at e1
      rw [if_neg (by rw [← h.time]; exact c2)] at e2
      by_cases c3 : o.status = .notExecuted
      · rw [if_pos c3] at e1 e2
        cases e1; cases e2
        exact ⟨Slice.setOrder hs ht h _, rfl⟩
      · rw [if_neg c3] at e1 e2
        cases e1; cases e2
        exact ⟨h, rfl⟩
  · rw [if_neg c] at e1 e2
    cases e1; cases e2
    exact ⟨h, rfl⟩

theorem collectOrder_other {o : OrderRec} {l l' : List Order} (ho : o.pairId ≠ q) (hs : Tidy q Q s)
    (e : collectOrder o (s, l) = some (s', l')) : Slice q Q s s' := by
  unfold collectOrder at e
  split at e
  · split at e
    · obtain ⟨s1, e1, e2⟩ := Option.map_eq_some_iff.1 e
      cases e2
      exact finishOrder_other ho hs e1
    · cases e
      split
      · exact Slice.setOrder_other hs (o := { o with status := .notMatched }) ho
      · exact Slice.refl _
  · cases e; exact Slice.refl _

/-! ## Collecting the pools -/

theorem Tidy.disable (hs : Tidy q Q s) {p : PoolRec} (hp : Q p.id = true ↔ p.pairId = q) : Tidy q Q (s.markDisabled p) :=
  hs.setPool (p := { p with disabled := true }) hp
theorem Slice.disable (hs : Tidy q Q s) (ht : Tidy q Q t) (h : Slice q Q s t) {p : PoolRec} (hp : Q p.id = true ↔ p.pairId = q) :
    Slice q Q (s.markDisabled p) (t.markDisabled p) := h.setPool hs ht (p := { p with disabled := true }) hp
theorem Slice.disable_other (hs : Tidy q Q s) {p : PoolRec} (hp : Q p.id = true ↔ p.pairId = q) (hn : p.pairId ≠ q) :
    Slice q Q s (s.markDisabled p) := Slice.setPool_other hs (p := { p with disabled := true }) hp hn

theorem collectPool_tidy {env : Env} {pair : Pair} {pool : PoolRec} {l l' : List (Nat × Pool)} (hp : Q pool.id = true ↔ pool.pairId = q)
    (hs : Tidy q Q s) (e : collectPool env pair pool (s, l) = some (s', l')) : Tidy q Q s' := by
  unfold collectPool at e
  split at e
  · cases e; exact hs
  · split at e
    · cases e
    · split at e
      · cases e; exact hs.disable hp
      · cases e; exact hs

theorem Slice.rx (h : Slice q Q s t) {pool : PoolRec} (hp : Q pool.id = true) (pair : Pair) : s.poolRx pool pair = t.poolRx pool pair :=
  h.bal _ hp _
theorem Slice.ry (h : Slice q Q s t) {pool : PoolRec} (hp : Q pool.id = true) (pair : Pair) : s.poolRy pool pair = t.poolRy pool pair :=
  h.bal _ hp _
theorem Slice.ps (h : Slice q Q s t) {pool : PoolRec} (hp : Q pool.id = true) : s.poolSupply pool = t.poolSupply pool := h.sup _ hp

theorem collectPool_slice {env : Env} {pair : Pair} {pool : PoolRec} {l l' m' : List (Nat × Pool)}
    (hp : Q pool.id = true ↔ pool.pairId = q) (hq : pool.pairId = q) (hs : Tidy q Q s) (ht : Tidy q Q t) (h : Slice q Q s t)
    (e1 : collectPool env pair pool (s, l) = some (s', l')) (e2 : collectPool env pair pool (t, l) = some (t', m')) :
    Slice q Q s' t' ∧ l' = m' := by
  have hQ := hp.2 hq
  unfold collectPool at e1 e2
  simp only [← h.rx hQ pair, ← h.ry hQ pair, ← h.ps hQ] at e2
  by_cases c : pool.disabled = true
  · rw [if_pos c] at e1 e2
    cases e1; cases e2
    exact ⟨h, rfl⟩
  · rw [if_neg c] at e1 e2
    simp only at e1 e2
    cases ha : ammPool env pool (s.poolRx pool pair) (s.poolRy pool pair) (s.poolSupply pool) with
    | none => rw [ha] at e1; cases e1
    | some ap =>
      rw [ha] at e1 e2
      simp only at e1 e2
      by_cases c2 : ap.isDepleted = true
      · rw [if_pos c2] at e1 e2
        cases e1; cases e2
        exact ⟨h.disable hs ht hp, rfl⟩
      · rw [if_neg c2] at e1 e2
        cases e1; cases e2
        exact ⟨h, rfl⟩

theorem collectPool_other {env : Env} {pair : Pair} {pool : PoolRec} {l l' : List (Nat × Pool)} (hp : Q pool.id = true ↔ pool.pairId = q)
    (hn : pool.pairId ≠ q) (hs : Tidy q Q s) (hl : ∀ e ∈ l, Q e.1 = false)
    (e : collectPool env pair pool (s, l) = some (s', l')) : Slice q Q s s' ∧ ∀ e ∈ l', Q e.1 = false := by
  have hQ : Q pool.id = false := Bool.eq_false_iff.2 fun c => hn (hp.1 c)
  unfold collectPool at e
  split at e
  · cases e; exact ⟨Slice.refl _, hl⟩
  · split at e
    · cases e
    · split at e
      · cases e; exact ⟨Slice.disable_other hs hp hn, hl⟩
      · cases e
        refine ⟨Slice.refl _, ?_⟩
        intro x hx
        rcases List.mem_append.1 hx with hx | hx
        · exact hl x hx
        · rw [List.mem_singleton.1 hx]; exact hQ

/-! ## The payments -/

theorem pay_away {pair : Pair} : ∀ (os : List Order) (op : BulkOp), (∀ o ∈ os, ∀ id, o.kind = .pool id → Q id = false) → Away Q op →
    Away Q (queuePoolPayments pair os op) := by
  intro os
  induction os with
  | nil => intro op _ h; exact h
  | cons o os ih =>
    intro op ho h
    unfold queuePoolPayments
    apply ih _ (fun x hx => ho x (by simp [hx]))
    split
    · rename_i id hk
      split
      · refine h.queue (fun i hi => ?_) (fun i hi => by simp)
        intro e
        injection e with e
        have := ho o (by simp) id hk
        rw [e, hi] at this
        cases this
      · exact h
    · exact h

theorem Slice.getOrder (h : Slice q Q s t) (id : Nat) : s.getOrder q id = t.getOrder q id := by
  unfold State.getOrder
  have hk : ∀ l : List OrderRec, ∀ x ∈ l, x.key = (q, id) → (x.pairId == q) = true := fun l x _ e => by
    rw [(Prod.mk.inj e).1]; exact beq_self_eq_true q
  rw [lookup_slice (hk _), lookup_slice (l := t.orders) (hk _), h.orders]

/-- Elementwise form of one step of applying the results. -/
theorem applyOrder_form {pair : Pair} {o : Order} {st st' : ApplyState} (e : applyOrder pair o st = some st') :
    (o.isMatched = false ∧ st' = st) ∨
    (∃ oid b rec s1, o.isMatched = true ∧ o.kind = .user oid b ∧ st.s.getOrder pair.id oid = some rec ∧
      (let rec' := { rec with openAmt := rec.openAmt - (o.amount - o.openAmt), remaining := rec.remaining - o.paid,
                              received := rec.received + o.received }
       (if rec'.openAmt = 0 then finishOrder rec' .completed st.s
        else some (st.s.setOrder { rec' with status := .partiallyMatched })) = some s1) ∧
      st' = { st with s := s1, op := st.op.queue (.pairEscrow pair.id) (.user rec.orderer) [⟨rec.demandDenom, o.received⟩] }) ∨
    (∃ id dirs, o.isMatched = true ∧ o.kind = .pool id ∧
      dirs = (if (st.dirs.find? (fun d => d.1 == id)).isNone then st.dirs ++ [(id, o.dir)] else st.dirs) ∧
      st' = { st with op := st.op.queue (.pairEscrow pair.id) (.poolReserve id) [⟨pair.demandDenom o.dir, o.received⟩], dirs }) := by
  unfold applyOrder at e
  split at e
  · rename_i c
    exact Or.inl ⟨c, (Option.some.inj e).symm⟩
  · rename_i c
    have c : o.isMatched = true := by simpa using c
    simp only at e
    split at e
    · rename_i oid b hk
      split at e
      · cases e
      · rename_i rec hr
        split at e
        · cases e
        · split at e
          · cases e
          · rename_i s1 h1
            exact Or.inr (Or.inl ⟨oid, b, rec, s1, c, hk, hr, h1, (Option.some.inj e).symm⟩)
    · rename_i id hk
      split at e
      · rename_i hd
        exact Or.inr (Or.inr ⟨id, _, c, hk, by rw [hd]; rfl, (Option.some.inj e).symm⟩)
      · rename_i d hd
        split at e
        · cases e
        · exact Or.inr (Or.inr ⟨id, _, c, hk, by rw [hd]; rfl, (Option.some.inj e).symm⟩)

theorem settle_tidy {r : OrderRec} {s1 : State} (hs : Tidy q Q s)
    (e : (if r.openAmt = 0 then finishOrder r .completed s else some (s.setOrder { r with status := .partiallyMatched })) = some s1) :
    Tidy q Q s1 := by
  by_cases c : r.openAmt = 0
  · rw [if_pos c] at e; exact finishOrder_tidy hs e
  · rw [if_neg c] at e; cases e; exact hs.setOrder _

theorem settle_slice {r : OrderRec} {s1 t1 : State} (hs : Tidy q Q s) (ht : Tidy q Q t) (h : Slice q Q s t)
    (e : (if r.openAmt = 0 then finishOrder r .completed s else some (s.setOrder { r with status := .partiallyMatched })) = some s1)
    (e' : (if r.openAmt = 0 then finishOrder r .completed t else some (t.setOrder { r with status := .partiallyMatched })) = some t1) :
    Slice q Q s1 t1 := by
  by_cases c : r.openAmt = 0
  · rw [if_pos c] at e e'; exact finishOrder_slice hs ht h e e'
  · rw [if_neg c] at e e'; cases e; cases e'; exact h.setOrder hs ht _

theorem settle_other {r : OrderRec} {s1 : State} (hr : r.pairId ≠ q) (hs : Tidy q Q s)
    (e : (if r.openAmt = 0 then finishOrder r .completed s else some (s.setOrder { r with status := .partiallyMatched })) = some s1) :
    Slice q Q s s1 := by
  by_cases c : r.openAmt = 0
  · rw [if_pos c] at e; exact finishOrder_other hr hs e
  · rw [if_neg c] at e; cases e; exact Slice.setOrder_other hs (o := { r with status := .partiallyMatched }) hr

theorem applyOrder_tidy {pair : Pair} {o : Order} {st st' : ApplyState} (hs : Tidy q Q st.s) (e : applyOrder pair o st = some st') :
    Tidy q Q st'.s := by
  rcases applyOrder_form e with ⟨-, rfl⟩ | ⟨oid, b, rec, s1, -, -, -, h1, rfl⟩ | ⟨id, dirs, -, -, -, rfl⟩
  · exact hs
  · exact settle_tidy hs h1
  · exact hs

theorem applyOrder_slice {pair : Pair} {o : Order} {a b a' b' : ApplyState} (hq : pair.id = q) (hs : Tidy q Q a.s) (ht : Tidy q Q b.s)
    (h : Slice q Q a.s b.s) (hop : a.op = b.op) (hd : a.dirs = b.dirs) (e1 : applyOrder pair o a = some a')
    (e2 : applyOrder pair o b = some b') : Slice q Q a'.s b'.s ∧ a'.op = b'.op ∧ a'.dirs = b'.dirs := by
  rcases applyOrder_form e1 with ⟨m, rfl⟩ | ⟨oid, ba, rec, s1, m, k, g, h1, rfl⟩ | ⟨id, dirs, m, k, hdi, rfl⟩ <;>
    rcases applyOrder_form e2 with ⟨m', rfl⟩ | ⟨oid', ba', rec', s1', m', k', g', h1', rfl⟩ | ⟨id', dirs', m', k', hdi', rfl⟩
  · exact ⟨h, hop, hd⟩
  · rw [m] at m'; cases m'
  · rw [m] at m'; cases m'
  · rw [m] at m'; cases m'
  · rw [k] at k'
    injection k' with k1 k2
    subst k1
    rw [hq] at g g'
    rw [h.getOrder, g'] at g
    cases g
    exact ⟨settle_slice hs ht h h1 h1', by show a.op.queue _ _ _ = b.op.queue _ _ _; rw [hop], hd⟩
  · rw [k] at k'; cases k'
  · rw [m] at m'; cases m'
  · rw [k] at k'; cases k'
  · rw [k] at k'
    injection k' with k1
    subst k1
    refine ⟨h, by show a.op.queue _ _ _ = b.op.queue _ _ _; rw [hop], ?_⟩
    show dirs = dirs'
    rw [hdi, hdi', hd]

theorem applyOrder_other {pair : Pair} {o : Order} {st st' : ApplyState} (hq : pair.id ≠ q) (ho : ∀ id, o.kind = .pool id → Q id = false)
    (hs : Tidy q Q st.s) (ha : Away Q st.op) (e : applyOrder pair o st = some st') : Slice q Q st.s st'.s ∧ Away Q st'.op := by
  rcases applyOrder_form e with ⟨-, rfl⟩ | ⟨oid, b, rec, s1, -, -, g, h1, rfl⟩ | ⟨id, dirs, -, k, -, rfl⟩
  · exact ⟨Slice.refl _, ha⟩
  · have hk : rec.pairId = pair.id := (Prod.mk.inj (lookup_some_mem g).2).1
    exact ⟨settle_other (by show rec.pairId ≠ q; rw [hk]; exact hq) hs h1, ha.queue (fun _ _ => by simp) (fun _ _ => by simp)⟩
  · refine ⟨Slice.refl _, ha.queue (fun _ _ => by simp) (fun i hi => ?_)⟩
    intro e
    injection e with e
    have := ho id k
    rw [e, hi] at this
    cases this

theorem applyMatch_tidy {pair : Pair} {os : List Order} {d : Int} (hs : Tidy q Q s) (e : applyMatchResult pair os d s = some s') :
    Tidy q Q s' := by
  unfold applyMatchResult at e
  split at e
  · cases e
  · rename_i b hb
    split at e
    · cases e
    · rename_i st hf
      split at e
      · cases e
      · rename_i b2 hb2
        cases e
        exact (forEach_keep (ok := fun _ => True) (R := fun (st : ApplyState) => Tidy q Q st.s) (fun x a a' _ ha e => applyOrder_tidy ha e) _ _ _
          (fun _ _ => trivial) (hs.bank b) hf).bank b2

theorem applyMatch_slice {pair : Pair} {os : List Order} {d : Int} (hq : pair.id = q) (hs : Tidy q Q s) (ht : Tidy q Q t)
    (h : Slice q Q s t) (e1 : applyMatchResult pair os d s = some s') (e2 : applyMatchResult pair os d t = some t') :
    Slice q Q s' t' := by
  unfold applyMatchResult at e1 e2
  split at e1
  · cases e1
  · rename_i b hb
    split at e1
    · cases e1
    · rename_i st hf
      split at e1
      · cases e1
      · rename_i b2 hb2
        cases e1
        split at e2
        · cases e2
        · rename_i c hc
          split at e2
          · cases e2
          · rename_i st' hf'
            split at e2
            · cases e2
            · rename_i c2 hc2
              cases e2
              obtain ⟨h1, h2, h3, h4, h5⟩ := forEach_rel (f := applyOrder pair) (g := applyOrder pair) (ok := fun _ => True)
                (R := fun (a b : ApplyState) => Tidy q Q a.s ∧ Tidy q Q b.s ∧ Slice q Q a.s b.s ∧ a.op = b.op ∧ a.dirs = b.dirs)
                (fun x a b a' b' _ ha f1 f2 => ⟨applyOrder_tidy ha.1 f1, applyOrder_tidy ha.2.1 f2,
                  applyOrder_slice hq ha.1 ha.2.1 ha.2.2.1 ha.2.2.2.1 ha.2.2.2.2 f1 f2⟩)
                os ⟨_, [], []⟩ st ⟨_, [], []⟩ st'
                (fun _ _ => trivial) hf hf' ⟨hs.bank b, ht.bank c, h.bank (bankEq_run h.bankEq hb hc), rfl, rfl⟩
              rw [h.params, h4] at hb2
              exact h3.bank (bankEq_run h3.bankEq hb2 hc2)

theorem applyMatch_other {pair : Pair} {os : List Order} {d : Int} (hq : pair.id ≠ q)
    (ho : ∀ o ∈ os, ∀ id, o.kind = .pool id → Q id = false) (hs : Tidy q Q s) (e : applyMatchResult pair os d s = some s') :
    Slice q Q s s' := by
  unfold applyMatchResult at e
  split at e
  · cases e
  · rename_i b hb
    split at e
    · cases e
    · rename_i st hf
      split at e
      · cases e
      · rename_i b2 hb2
        cases e
        have hb' := bankEq_run_other (pay_away os [] ho away_nil) hb
        obtain ⟨h1, h2, h3⟩ := forEach_keep (ok := fun (o : Order) => ∀ id, o.kind = .pool id → Q id = false)
          (R := fun (st : ApplyState) => Tidy q Q st.s ∧ Slice q Q s st.s ∧ Away Q st.op)
          (fun x a a' hx ha f1 => ⟨applyOrder_tidy ha.1 f1, ha.2.1.trans (applyOrder_other hq hx ha.1 ha.2.2 f1).1,
            (applyOrder_other hq hx ha.1 ha.2.2 f1).2⟩) _ _ _ ho ⟨hs.bank b, Slice.bank_other hb', away_nil⟩ hf
        exact h2.trans (Slice.bank_other (bankEq_run_other (h3.queue (fun _ _ => by simp) hs.dust) hb2))

/-! ## A pair -/

theorem kinds_of_match {env : Env} {pr : Params} {os : List Order} {pools : List (Nat × Pool)} {last : Option Int} {out : MatchOut}
    (hos : ∀ o ∈ os, ∀ id, o.kind ≠ .pool id) (hp : ∀ e ∈ pools, Q e.1 = false)
    (h : keeperMatch env pr os pools last = some (some out)) : ∀ o ∈ out.orders, ∀ id, o.kind = .pool id → Q id = false := by
  obtain ⟨pos, h', hpos, hids, hout⟩ := keeperMatch_ids h
  intro o ho id hk
  rw [hout] at ho
  obtain ⟨i, hi, rfl⟩ := List.mem_map.1 ho
  have hi' := (book_orders_nodup (heapOf (os ++ pos)) (List.nodup_range (n := (os ++ pos).length))).2.1 i hi
  rw [List.mem_range] at hi'
  rw [(hids i).1] at hk
  by_cases c : i < os.length
  · rw [heapOf_left c] at hk
    exact absurd hk (hos _ (List.getElem_mem _) id)
  · obtain ⟨id', h1, h2⟩ := hpos _ (heapOf_right (Nat.le_of_not_lt c) hi')
    rw [h2] at hk
    injection hk with hk
    subst hk
    obtain ⟨e, he, h3⟩ := List.mem_map.1 h1
    rw [← h3]
    exact hp e he

theorem collect_kinds : ∀ (l : List OrderRec) (st st' : State × List Order), (∀ o ∈ st.2, ∀ id, o.kind ≠ .pool id) →
    forEach collectOrder l st = some st' → ∀ o ∈ st'.2, ∀ id, o.kind ≠ .pool id := by
  intro l st st' h e
  refine forEach_keep (ok := fun _ => True) (R := fun (st : State × List Order) => ∀ o ∈ st.2, ∀ id, o.kind ≠ .pool id) ?_ l st st'
    (fun _ _ => trivial) h e
  intro x a a' _ ha f
  unfold collectOrder at f
  split at f
  · split at f
    · obtain ⟨s1, -, e2⟩ := Option.map_eq_some_iff.1 f
      cases e2; exact ha
    · cases f
      intro o ho id
      rcases List.mem_append.1 ho with ho | ho
      · exact ha o ho id
      · rw [List.mem_singleton.1 ho]
        intro c; cases c
  · cases f; exact ha

theorem executeMatching_tidy {env : Env} {pair : Pair} (hs : Tidy q Q s) (e : executeMatching env pair s = some s') : Tidy q Q s' := by
  unfold executeMatching at e
  split at e
  · cases e
  · rename_i s1 os hc
    have h1 : Tidy q Q s1 := forEach_keep (ok := fun _ => True) (R := fun (st : State × List Order) => Tidy q Q st.1)
      (fun x a a' _ ha f => collectOrder_tidy (l := a.2) (l' := a'.2) ha f) _ _ _ (fun _ _ => trivial) hs hc
    split at e
    · cases e
    · rename_i s2 pools hpl
      have h2 : Tidy q Q s2 := forEach_keep (ok := fun (p : PoolRec) => (Q p.id = true ↔ p.pairId = q))
        (R := fun (st : State × List (Nat × Pool)) => Tidy q Q st.1)
        (fun x a a' hx ha f => collectPool_tidy (l := a.2) (l' := a'.2) hx ha f) _ _ _
        (fun x hx => h1.mine x (List.mem_filter.1 hx).1) h1 hpl
      split at e
      · cases e
      · cases e; exact h2.setPair _
      · split at e
        · cases e
        · rename_i s3 h3
          cases e
          exact ((applyMatch_tidy h2 h3).shortfall _).setPair _

theorem executeMatching_slice {env : Env} {pair : Pair} (hq : pair.id = q) (hs : Tidy q Q s) (ht : Tidy q Q t) (h : Slice q Q s t)
    (e1 : executeMatching env pair s = some s') (e2 : executeMatching env pair t = some t') : Slice q Q s' t' := by
  unfold executeMatching at e1 e2
  have ho : s.ordersOf pair.id = t.ordersOf pair.id := by rw [hq]; exact h.orders
  split at e1
  · cases e1
  · rename_i s1 os hc
    split at e2
    · cases e2
    · rename_i t1 os' hc'
      rw [← ho] at hc'
      obtain ⟨k1, k2, k3, k4⟩ := forEach_rel (ok := fun _ => True)
        (R := fun (a b : State × List Order) => Tidy q Q a.1 ∧ Tidy q Q b.1 ∧ Slice q Q a.1 b.1 ∧ a.2 = b.2)
        (fun x a b a' b' _ ha f1 f2 => by
          obtain ⟨a, l⟩ := a; obtain ⟨b, m⟩ := b
          obtain ⟨h1, h2, h3, h4⟩ := ha
          simp only at h4
          subst h4
          exact ⟨collectOrder_tidy h1 f1, collectOrder_tidy h2 f2, collectOrder_slice h1 h2 h3 f1 f2⟩) _ _ _ _ _
        (fun _ _ => trivial) hc hc' ⟨hs, ht, h, rfl⟩
      simp only at k1 k2 k3 k4
      subst k4
      have hp : s1.poolsOf pair.id = t1.poolsOf pair.id := by rw [hq]; exact k3.pools
      split at e1
      · cases e1
      · rename_i s2 pools hpl
        split at e2
        · cases e2
        · rename_i t2 pools' hpl'
          rw [← hp] at hpl'
          obtain ⟨l1, l2, l3, l4⟩ := forEach_rel (ok := fun (p : PoolRec) => (Q p.id = true ↔ p.pairId = q) ∧ p.pairId = q)
            (R := fun (a b : State × List (Nat × Pool)) => Tidy q Q a.1 ∧ Tidy q Q b.1 ∧ Slice q Q a.1 b.1 ∧ a.2 = b.2)
            (fun x a b a' b' hx ha f1 f2 => by
              obtain ⟨a, l⟩ := a; obtain ⟨b, m⟩ := b
              obtain ⟨h1, h2, h3, h4⟩ := ha
              simp only at h4
              subst h4
              exact ⟨collectPool_tidy hx.1 h1 f1, collectPool_tidy hx.1 h2 f2, collectPool_slice hx.1 hx.2 h1 h2 h3 f1 f2⟩) _ _ _ _ _
            (fun x hx => ⟨k1.mine x (List.mem_filter.1 hx).1, by rw [← hq]; simpa using (List.mem_filter.1 hx).2⟩)
            hpl hpl' ⟨k1, k2, k3, rfl⟩
          simp only at l1 l2 l3 l4
          subst l4
          rw [← l3.params] at e2
          split at e1
          · cases e1
          · rename_i hm
            rw [hm] at e2
            cases e1; cases e2
            exact l3.setPair l1 l2 _
          · rename_i out hm
            rw [hm] at e2
            simp only at e2
            split at e1
            · cases e1
            · rename_i s3 h3
              cases e1
              split at e2
              · cases e2
              · rename_i t3 g3
                cases e2
                have l5 := applyMatch_slice hq l1 l2 l3 h3 g3
                have m1 := applyMatch_tidy l1 h3
                have m2 := applyMatch_tidy l2 g3
                have l6 : Slice q Q { s3 with shortfall := fun id => s3.shortfall id + (if id = pair.id then baseImbalance out.orders else 0) }
                    { t3 with shortfall := fun id => t3.shortfall id + (if id = pair.id then baseImbalance out.orders else 0) } := { l5 with }
                exact l6.setPair (m1.shortfall _) (m2.shortfall _) _

theorem executeMatching_other {env : Env} {pair : Pair} (hq : pair.id ≠ q) (hs : Tidy q Q s)
    (e : executeMatching env pair s = some s') : Slice q Q s s' := by
  unfold executeMatching at e
  split at e
  · cases e
  · rename_i s1 os hc
    obtain ⟨h1, k1⟩ := forEach_keep (ok := fun (o : OrderRec) => o.pairId ≠ q)
      (R := fun (st : State × List Order) => Tidy q Q st.1 ∧ Slice q Q s st.1)
      (fun x a a' hx ha f => ⟨collectOrder_tidy (l := a.2) (l' := a'.2) ha.1 f,
        ha.2.trans (collectOrder_other (l := a.2) (l' := a'.2) hx ha.1 f)⟩) _ _ _
      (fun x hx => by
        have := (List.mem_filter.1 hx).2
        rw [beq_iff_eq] at this
        rw [this]; exact hq) ⟨hs, Slice.refl _⟩ hc
    have hos : ∀ o ∈ os, ∀ id, o.kind ≠ .pool id := collect_kinds _ _ _ (by simp) hc
    split at e
    · cases e
    · rename_i s2 pools hpl
      obtain ⟨h2, k2, hp⟩ := forEach_keep (ok := fun (p : PoolRec) => (Q p.id = true ↔ p.pairId = q) ∧ p.pairId ≠ q)
        (R := fun (st : State × List (Nat × Pool)) => Tidy q Q st.1 ∧ Slice q Q s st.1 ∧ ∀ e ∈ st.2, Q e.1 = false)
        (fun x a a' hx ha f => ⟨collectPool_tidy (l := a.2) (l' := a'.2) hx.1 ha.1 f,
          ha.2.1.trans (collectPool_other (l := a.2) (l' := a'.2) hx.1 hx.2 ha.1 ha.2.2 f).1,
          (collectPool_other (l := a.2) (l' := a'.2) hx.1 hx.2 ha.1 ha.2.2 f).2⟩) _ _ _
        (fun x hx => ⟨h1.mine x (List.mem_filter.1 hx).1, by
          have := (List.mem_filter.1 hx).2
          rw [beq_iff_eq] at this
          rw [this]; exact hq⟩) ⟨h1, k1, by simp⟩ hpl
      split at e
      · cases e
      · cases e
        exact k2.trans (Slice.setPair_other h2 (p := { pair with batchId := pair.batchId + 1 }) hq)
      · rename_i out hm
        split at e
        · cases e
        · rename_i s3 h3
          cases e
          have k3 := applyMatch_other hq (kinds_of_match hos hp hm) h2 h3
          have k4 : Slice q Q s3 { s3 with shortfall := fun id => s3.shortfall id + (if id = pair.id then baseImbalance out.orders else 0) } :=
            { Slice.refl s3 with }
          exact ((k2.trans k3).trans k4).trans (Slice.setPair_other ((applyMatch_tidy h2 h3).shortfall _)
            (p := { pair with lastPrice := some out.price, batchId := pair.batchId + 1 }) hq)

end Verif.Dex

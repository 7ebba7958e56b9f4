import Verif.Proofs.Trading
/-! # What holds before each matching of a batch -/
namespace Verif.Dex
open Verif Verif.Amm Verif.Spec

variable {s s' : State}

theorem forEach_append {α σ : Type} {f : α → σ → Option σ} : ∀ (l m : List α) (s : σ), forEach f (l ++ m) s = (forEach f l s).bind (forEach f m) := by
  intro l
  induction l with
  | nil => intro m s; rfl
  | cons a l ih =>
    intro m s
    simp only [List.cons_append, forEach]
    cases f a s with
    | none => rfl
    | some t => simp [ih]

/-- Before the matching of each pair of a batch in a sane state. -/
theorem before_match (hw : WF s) {env : Env} (hs : SaneState env s) (ho : ∀ o ∈ s.orders, Explained o)
    (hl : ∀ p ∈ s.pairs, ∀ lp, p.lastPrice = some lp → 0 < lp) {pre post : List Pair} {x : Pair} (he : s.pairs = pre ++ x :: post) {t : State}
    (h : forEach (executeMatching env) pre s = some t) : BeforeMatch env s t x := by
  have key : ∀ (pre : List Pair) (t t' : State), Matching s (pre ++ x :: post) t →
      (∀ q, (∃ z ∈ pre ++ x :: post, z.id = q.pairId) → (q ∈ t.pools ↔ q ∈ s.pools)) →
      t.bank.supply = s.bank.supply → (∀ q ∈ s.pools, (∃ z ∈ pre ++ x :: post, z.id = q.pairId) → ∀ d,
      t.bank.bal (.poolReserve q.id) d = s.bank.bal (.poolReserve q.id) d) → Trading s t → forEach (executeMatching env) pre t = some t' →
      BeforeMatch env s t' x := by
    intro xs
    induction xs with
    | nil =>
      intro t t' ht hpl hsup hres htr e
      cases e
      have hx := ht.pending x (by simp)
      exact ⟨ht.wf, hx.1, hx.2, by rw [ht.params]; exact hs.params,
        fun o h1 _ => by obtain ⟨_, _, _, _, h2⟩ := htr.orders o h1; exact h2, htr.prices x hx.1, by
          intro pool p1 p2 ap pp p3 p4
          have hps := (hpl pool ⟨x, by simp, p2.symm⟩).1 p1
          rw [hres pool hps ⟨x, by simp, p2.symm⟩, hres pool hps ⟨x, by simp, p2.symm⟩, hsup] at p3
          exact hs.prices pool hps x hx.2 p2.symm ap pp p3 p4⟩
    | cons y ys ih =>
      intro t t'' ht hpl hsup hres htr e
      simp only [forEach, Option.bind_eq_some_iff] at e
      obtain ⟨t', e1, e2⟩ := e
      simp only [List.cons_append] at ht hpl hres
      generalize ys ++ x :: post = xs at *
      have hx := ht.pending y (by simp)
      have hnd := (List.nodup_cons.1 ht.nodup)
      have hne : ∀ z ∈ xs, z.id ≠ y.id := fun z hz e2 => hnd.1 (ht.wf.key_pair (ht.pending z (by simp [hz])).1 hx.1 e2 ▸ hz)
      have hm := executeMatching_spec ht.wf hx.1 e1
      have hB : BeforeMatch env s t y := ⟨ht.wf, hx.1, hx.2, by rw [ht.params]; exact hs.params,
        fun o h1 _ => by obtain ⟨_, _, _, _, h2⟩ := htr.orders o h1; exact h2, htr.prices y hx.1, by
          intro pool p1 p2 ap pp p3 p4
          have hps := (hpl pool ⟨y, by simp, p2.symm⟩).1 p1
          rw [hres pool hps ⟨y, by simp, p2.symm⟩, hres pool hps ⟨y, by simp, p2.symm⟩, hsup] at p3
          exact hs.prices pool hps y hx.2 p2.symm ap pp p3 p4⟩
      obtain ⟨m1, lp, m2, m3⟩ := matching_trades ht.wf hx.1 (env := env) hB.params hB.orders hB.price hB.pools e1
      refine ih t' t'' (matching_step ht e1) ?_ ?_ ?_ ⟨?_, ?_⟩ e2
      · rintro q ⟨z, hz, hq⟩
        rw [executeMatching_pools_others ht.wf e1 (by rw [← hq]; exact hne z hz), hpl q ⟨z, by simp [hz], hq⟩]
      · rw [rel_executeMatching supply_rel e1, hsup]
      · rintro q hqs ⟨z, hz, hq⟩ d
        rw [executeMatching_reserve_others ht.wf hx.1 e1 ((hpl q ⟨z, by simp [hz], hq⟩).2 hqs) (by rw [← hq]; exact hne z hz)
          (by rw [ht.params]; exact hs.dust _), hres q hqs ⟨z, by simp [hz], hq⟩]
      · intro o hot
        by_cases hp : o.pairId = y.id
        · obtain ⟨o1, h1, l, h2, h3⟩ := m1 o hot hp
          obtain ⟨o0, h4, l0, h5, _⟩ := htr.orders o1 h1
          exact ⟨o0, h4, _, h5.trans h2, h3⟩
        · exact htr.orders o ((hm.others o hp).1 hot)
      · intro p hp
        rw [m2] at hp
        rcases (ht.wf.mem_setPair (p' := { y with lastPrice := lp, batchId := y.batchId + 1 }) hx.1 (by rfl)).1 hp with rfl | hp
        · exact m3
        · exact htr.prices p hp.1
  refine key pre s t (he ▸ matching_init hw) (fun _ _ => Iff.rfl) rfl (fun _ _ _ _ => rfl) ⟨?_, hl⟩ h
  intro o hm
  exact ⟨o, hm, [], FilledBy.nil rfl rfl rfl rfl, ho o hm⟩

end Verif.Dex

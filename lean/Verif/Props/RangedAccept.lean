import Verif.Props.Accept
/-! # C56: which coins a new ranged pool takes -/
namespace Verif.Props
open Verif Verif.Dex Verif.Spec

/-- **C56** A ranged pool created at its lower price bound takes all of the base coin and no quote coin; at its upper bound all of the quote
coin and no base coin; in any case it takes all of one of the two. -/
theorem C56_one_coin_in_full {sqrt : Int → Int} {x y mn mx ip : Int} {p : Amm.Pool}
    (h : Amm.createRangedPool sqrt x y mn mx ip = .ok p) :
    (ip = mn → p.rx = 0 ∧ p.ry = y) ∧ (ip = mx → p.rx = x ∧ p.ry = 0) ∧ (p.rx = x ∨ p.ry = y) := by
  unfold Amm.createRangedPool at h
  split at h
  · cases h
  split at h
  · cases h
  rename_i hv
  have hne : mn < mx := by
    by_contra hc
    apply hv
    unfold Amm.validateRangedPoolParams
    simp only [gt_iff_lt, hc, not_false_eq_true, if_true, ite_self]
  cases e : Amm.rangedAccept sqrt x y mn mx ip with
  | none => rw [e] at h; cases h
  | some a =>
    obtain ⟨ax, ay⟩ := a
    rw [e] at h
    simp only [Option.bind_eq_bind, Option.bind_some] at h
    unfold Amm.newRangedPool at h
    cases e2 : Amm.deriveTranslation sqrt ax ay mn mx with
    | none => rw [e2] at h; cases h
    | some t =>
      rw [e2] at h
      simp only [Option.bind_eq_bind, Option.bind_some] at h
      cases h
      show (ip = mn → ax = 0 ∧ ay = y) ∧ (ip = mx → ax = x ∧ ay = 0) ∧ (ax = x ∨ ay = y)
      unfold Amm.rangedAccept at e
      split at e
      · rename_i h1
        simp only [Option.some.injEq, Prod.mk.injEq] at e
        obtain ⟨rfl, rfl⟩ := e
        exact ⟨fun _ => ⟨rfl, rfl⟩, fun h2 => absurd (h1.symm.trans h2) (ne_of_lt hne), .inr rfl⟩
      · rename_i h1
        split at e
        · simp only [Option.some.injEq, Prod.mk.injEq] at e
          obtain ⟨rfl, rfl⟩ := e
          exact ⟨fun h2 => absurd h2 h1, fun _ => ⟨rfl, rfl⟩, .inl rfl⟩
        · rename_i h2
          refine ⟨fun h3 => absurd h3 h1, fun h3 => absurd h3 h2, ?_⟩
          simp only [Option.bind_eq_bind, Option.bind_eq_some_iff] at e
          obtain ⟨q, _, i1, _, i2, _, e⟩ := e
          split at e
          · simp only [Option.bind_eq_some_iff, pure, Option.some.injEq, Prod.mk.injEq] at e
            obtain ⟨_, _, _, e⟩ := e
            exact .inr e.symm
          · simp only [pure, Option.some.injEq, Prod.mk.injEq] at e
            exact .inl e.1.symm

/-- **C56** The same for the message: what a successful creation of a ranged pool puts into the reserve of the new pool. -/
theorem C56_create_ranged_amounts {env : Env} {s s' : State} (hs : Reachable env s) {m : MsgCreateRangedPool}
    (hv : m.validateBasic = true) (h : createRangedPoolMsg env m s = some s') :
    ∃ q ∈ s.pairs, q.id = m.pairId ∧ ∃ quote base minted : Int,
      PoolCreated m.pairId m.creator (some (m.minPrice, m.maxPrice)) [⟨q.quote, quote⟩, ⟨q.base, base⟩] minted s s' ∧
      (m.initialPrice = m.minPrice → quote = 0 ∧ base = amountOf m.coins q.base) ∧
      (m.initialPrice = m.maxPrice → quote = amountOf m.coins q.quote ∧ base = 0) ∧
      (quote = amountOf m.coins q.quote ∨ base = amountOf m.coins q.base) := by
  obtain ⟨q, hq, e1, _, ap, minted, e2, _, e3, _⟩ := C57_create_ranged_pool hs hv h
  exact ⟨q, hq, e1, ap.rx, ap.ry, minted, e3, C56_one_coin_in_full e2⟩

/-- The hypotheses of `C56_create_ranged_amounts` are met at both price bounds and in between. -/
example : ∃ s, Reachable Demo.env s ∧ ∀ ip ∈ [(5 : Int) * 10 ^ 17, 10 ^ 18, 2 * 10 ^ 18],
    (⟨1, 1, [⟨.native 0, 2000000⟩, ⟨.native 1, 1000000⟩], 5 * 10 ^ 17, 2 * 10 ^ 18, ip⟩ : MsgCreateRangedPool).validateBasic = true ∧
    (createRangedPoolMsg Demo.env ⟨1, 1, [⟨.native 0, 2000000⟩, ⟨.native 1, 1000000⟩], 5 * 10 ^ 17, 2 * 10 ^ 18, ip⟩ s).isSome :=
  Demo.reach [.createPair ⟨1, .native 0, .native 1⟩] _ (by decide +kernel)

end Verif.Props

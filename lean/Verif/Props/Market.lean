import Verif.Proofs.MarketOps
import Verif.Proofs.MarketAnswer
import Verif.Proofs.Example
/-! # C84: markets are independent of each other -/
namespace Verif.Props
open Verif Verif.Dex Verif.Spec

theorem reachable_known {env : Env} {s : State} (h : ReachableWith env CollectorsApart s) : Known s := by
  obtain ⟨s0, ops, hg, hp, hops, hr⟩ := h
  exact ⟨run_wf (genesis_wf hg) hr, params_run (genesis_wf hg) hp hops hr⟩

/-- **C84** Two histories that start with the same market of a pair, and in which this market sees the same blocks, parameter changes
and accepted messages, end with the same market, whatever happens in other markets, to balances and to refused messages. -/
theorem C84_markets_independent {env : Env} {q : Nat} {trace : List Op} {s t s' t' : State}
    (hs : ReachableWith env CollectorsApart s) (ht : ReachableWith env CollectorsApart t) (hq : ∃ p ∈ s.pairs, p.id = q)
    (h : SameMarket q s t) (h1 : Sees env q trace s s') (h2 : Sees env q trace t t') : SameMarket q s' t' := by
  obtain ⟨p, hp, hpq⟩ := hq
  exact sees_same trace (reachable_known hs) (reachable_known ht) ⟨p, hp, hpq⟩ ⟨p, (h.pair p hpq).1 hp, hpq⟩ h h1 h2

/-- **C84** The result of a batch in a market depends on this market only, if the batch goes through. -/
theorem C84_batch {env : Env} {q : Nat} {s t s' t' : State} (hs : ReachableWith env CollectorsApart s)
    (ht : ReachableWith env CollectorsApart t) (h : SameMarket q s t) (h1 : step env .endBlock s = some s')
    (h2 : step env .endBlock t = some t') : SameMarket q s' t' :=
  step_own (op := .endBlock) (reachable_known hs) (reachable_known ht) trivial (fun h => h) h (Option.isSome_iff_exists.2 ⟨s', h1⟩)
    (Option.isSome_iff_exists.2 ⟨t', h2⟩) h1 h2

/-- **C84** Messages about other markets leave a market alone, accepted or not. -/
theorem C84_other_messages {env : Env} {q : Nat} {op : Op} {s s' : State} (hs : ReachableWith env CollectorsApart s)
    (hq : ∃ p ∈ s.pairs, p.id = q) (he : Elsewhere q s op) (h : step env op s = some s') : SameMarket q s s' :=
  step_elsewhere (reachable_known hs) hq he h

/-- **C84** A history in which the market sees nothing leaves it as it is. -/
theorem C84_unseen_history {env : Env} {q : Nat} {s s' : State} (hs : ReachableWith env CollectorsApart s)
    (hq : ∃ p ∈ s.pairs, p.id = q) (h : Sees env q [] s s') : SameMarket q s s' :=
  sees_nil h (reachable_known hs) hq rfl

theorem answer_of {env : Env} {q u : Nat} {op : Op} {s t : State} (hs : ReachableWith env CollectorsApart s)
    (ht : ReachableWith env CollectorsApart t) (h : SameMarket q s t) (ho : Addressed q s u op)
    (hb : ∀ d, s.bank.bal (.user u) d = t.bank.bal (.user u) d) (he : ∀ d, s.bank.bal (.pairEscrow q) d = t.bank.bal (.pairEscrow q) d)
    (e : ∃ s', accepted env op s = some s') : ∃ t', accepted env op t = some t' := by
  have ws := (reachable_known hs).wf
  have wt := (reachable_known ht).wf
  have rs : Reachable env s := by
    obtain ⟨s0, ops, hg, _, _, hr⟩ := hs
    exact ⟨s0, ops, hg, hr⟩
  have rt : Reachable env t := by
    obtain ⟨s0, ops, hg, _, _, hr⟩ := ht
    exact ⟨s0, ops, hg, hr⟩
  have hsl := slice_of_same ws wt h
  cases ho with
  | createPool m hq hu =>
    subst hu
    unfold accepted at e ⊢
    simp only at e ⊢
    split at e
    · rename_i hv
      rw [if_pos hv, C57_create_pool_accepted_iff rt hv]
      obtain ⟨p, e⟩ := (C57_create_pool_accepted_iff rs hv).1 e
      exact ⟨p, basic_same h hsl hq hb e⟩
    · obtain ⟨_, e⟩ := e; cases e
  | createRangedPool m hq hu =>
    subst hu
    unfold accepted at e ⊢
    simp only at e ⊢
    split at e
    · rename_i hv
      rw [if_pos hv, C57_create_ranged_accepted_iff rt hv]
      obtain ⟨p, ap, e⟩ := (C57_create_ranged_accepted_iff rs hv).1 e
      exact ⟨p, ap, ranged_same h hsl hq hb e⟩
    · obtain ⟨_, e⟩ := e; cases e
  | deposit m hq hu =>
    subst hu
    unfold accepted at e ⊢
    simp only at e ⊢
    split at e
    · rename_i hv
      rw [if_pos hv, C43_deposit_accepted_iff rt hv]
      obtain ⟨x, p, e⟩ := (C43_deposit_accepted_iff rs hv).1 e
      exact ⟨x, p, deposit_same h hq ws hb e⟩
    · obtain ⟨_, e⟩ := e; cases e
  | withdraw m hq hu =>
    subst hu
    unfold accepted at e ⊢
    simp only at e ⊢
    split at e
    · rename_i hv
      rw [if_pos hv, C43_withdraw_accepted_iff rt hv]
      obtain ⟨x, e⟩ := (C43_withdraw_accepted_iff rs hv).1 e
      exact ⟨x, withdraw_same h hq ws hb e⟩
    · obtain ⟨_, e⟩ := e; cases e
  | limitOrder m hq hu =>
    subst hu hq
    unfold accepted at e ⊢
    simp only at e ⊢
    split at e
    · rename_i hv
      rw [if_pos hv]
      exact placeOrder_answer ws wt hsl (hb _) e
    · obtain ⟨_, e⟩ := e; cases e
  | marketOrder m hq hu =>
    subst hu hq
    unfold accepted at e ⊢
    simp only at e ⊢
    split at e
    · rename_i hv
      rw [if_pos hv]
      exact placeOrder_answer ws wt hsl (hb _) e
    · obtain ⟨_, e⟩ := e; cases e
  | mmOrder m hq hu =>
    subst hu
    unfold accepted at e ⊢
    simp only at e ⊢
    split at e
    · rename_i hv
      rw [if_pos hv]
      exact mmOrder_answer ws wt hsl hq (hb _) e
    · obtain ⟨_, e⟩ := e; cases e
  | cancelOrder m hq hu =>
    unfold accepted at e ⊢
    simp only at e ⊢
    split at e
    · rename_i hv
      rw [if_pos hv]
      exact cancelOrder_answer hsl hq he e
    · obtain ⟨_, e⟩ := e; cases e
  | cancelAllOrders m hq hu =>
    unfold accepted at e ⊢
    simp only at e ⊢
    split at e
    · rename_i hv
      rw [if_pos hv]
      exact cancelAll_answer hsl hq he e
    · obtain ⟨_, e⟩ := e; cases e

/-- **C84** Whether a message about a market is accepted depends only on this market, the balances of its sender and the escrow account
of the pair (read when an order is canceled), and not on other markets. -/
theorem C84_same_answer {env : Env} {q u : Nat} {op : Op} {s t : State} (hs : ReachableWith env CollectorsApart s)
    (ht : ReachableWith env CollectorsApart t) (h : SameMarket q s t) (ho : Addressed q s u op)
    (hb : ∀ d, s.bank.bal (.user u) d = t.bank.bal (.user u) d)
    (he : ∀ d, s.bank.bal (.pairEscrow q) d = t.bank.bal (.pairEscrow q) d) :
    (∃ s', accepted env op s = some s') ↔ ∃ t', accepted env op t = some t' := by
  refine ⟨answer_of hs ht h ho hb he, answer_of ht hs (SameMarket_symm h) ?_ (fun d => (hb d).symm) (fun d => (he d).symm)⟩
  cases ho with
  | createPool m hq hu => exact .createPool m hq hu
  | createRangedPool m hq hu => exact .createRangedPool m hq hu
  | deposit m hq hu => exact .deposit m ((poolOf_same h).1 hq) hu
  | withdraw m hq hu => exact .withdraw m ((poolOf_same h).1 hq) hu
  | limitOrder m hq hu => exact .limitOrder m hq hu
  | marketOrder m hq hu => exact .marketOrder m hq hu
  | mmOrder m hq hu => exact .mmOrder m hq hu
  | cancelOrder m hq hu => exact .cancelOrder m hq hu
  | cancelAllOrders m hq hu => exact .cancelAllOrders m hq hu

/-- The state after a history of the demo chain. -/
def after (ops : List Op) : State := (run Demo.env ops Demo.s0).getD Demo.s0

theorem run_append {env : Env} : ∀ (a b : List Op) (s : State), run env (a ++ b) s = (run env a s).bind (run env b)
  | [], _, _ => rfl
  | op :: a, b, s => by
    simp only [List.cons_append, run, Option.bind_assoc]
    exact congrArg _ (funext fun t => run_append a b t)

theorem after_step {ops : List Op} {op : Op} (h : (run Demo.env (ops ++ [op]) Demo.s0).isSome = true) :
    step Demo.env op (after ops) = some (after (ops ++ [op])) := by
  obtain ⟨s', hs'⟩ := Option.isSome_iff_exists.1 h
  have e := hs'
  rw [run_append, Option.bind_eq_some_iff] at e
  obtain ⟨u, h1, h2⟩ := e
  unfold after
  rw [hs', h1]
  simp only [run, Option.bind_eq_some_iff] at h2
  obtain ⟨v, h3, h4⟩ := h2
  cases h4
  exact h3

theorem after_reachable {ops : List Op} (hp : ∀ p, Op.setParams p ∈ ops → CollectorsApart p)
    (h : (run Demo.env ops Demo.s0).isSome = true) : ReachableWith Demo.env CollectorsApart (after ops) := by
  obtain ⟨s', hs'⟩ := Option.isSome_iff_exists.1 h
  refine ⟨Demo.s0, ops, Demo.genesis, fun id => ⟨by show Addr.other 2 ≠ _; simp, by show Addr.other 1 ≠ _; simp⟩, hp, ?_⟩
  unfold after
  rw [hs']
  rfl

/-- The market: a pair with a pool. -/
def opened : List Op :=
  [.createPair ⟨1, .native 0, .native 1⟩, .createPool ⟨1, 1, [⟨.native 0, 2000000⟩, ⟨.native 1, 2000000⟩]⟩]
/-- What it sees. -/
def buying : Op := .limitOrder ⟨2, 1, .buy, ⟨.native 1, 3000⟩, .native 0, 1010000000000000000, 2000, 100⟩
/-- What happens elsewhere: another pair ... -/
def opening : Op := .createPair ⟨3, .native 1, .native 0⟩
/-- ... with an order. -/
def selling : Op := .limitOrder ⟨3, 2, .sell, ⟨.native 1, 30000⟩, .native 0, 990000000000000000, 30000, 100⟩
/-- An order on the market that is refused: 10^12 coins are offered. -/
def tooMuch : Op := .limitOrder ⟨3, 1, .sell, ⟨.native 0, 1000000000000⟩, .native 1, 990000000000000000, 30000, 100⟩

/-- Non-vacuity: the market trades in both histories; in the second one there are another market and a refused order. -/
example : ∃ s s' t', ReachableWith Demo.env CollectorsApart s ∧ (∃ p ∈ s.pairs, p.id = 1) ∧ SameMarket 1 s s ∧
    Sees Demo.env 1 [buying, .endBlock] s s' ∧ Sees Demo.env 1 [buying, .endBlock] s t' ∧ s'.pairs.length = 1 ∧ t'.pairs.length = 2 ∧
    (∃ o ∈ s'.orders, 0 < o.received) := by
  refine ⟨after opened, after (opened ++ [buying] ++ [.endBlock]),
    after (opened ++ [opening] ++ [buying] ++ [selling] ++ [tooMuch] ++ [.endBlock]), ?_, by decide +kernel, ?_, ?_, ?_,
    by decide +kernel, by decide +kernel, by decide +kernel⟩
  · exact after_reachable (by intro p hp; simp [opened] at hp) (by decide +kernel)
  · exact same_of_slice (Slice.refl (Q := poolOf (after opened) 1) _) fun id => poolOf_iff.2
  · exact .own buying trivial (fun h => h rfl) (by decide +kernel) (after_step (by decide +kernel))
      (.own .endBlock trivial (fun h => h) (by decide +kernel) (after_step (by decide +kernel)) (.done _))
  · exact .elsewhere opening trivial (after_step (by decide +kernel))
      (.own buying trivial (fun h => h rfl) (by decide +kernel) (after_step (by decide +kernel))
      (.elsewhere selling (by show 2 ≠ 1; decide) (after_step (by decide +kernel))
      (.refused tooMuch (by rw [← Option.not_isSome_iff_eq_none]; decide +kernel) (after_step (by decide +kernel))
      (.own .endBlock trivial (fun h => h) (by decide +kernel) (after_step (by decide +kernel)) (.done _)))))

theorem send_bal {b b' : Bank} {src dst a : Addr} {cs : Coins} (h : b.send src dst cs = some b') (h1 : a ≠ src) (h2 : a ≠ dst) (d : Denom) :
    b.bal a d = b'.bal a d := by
  rw [(send_some h).2.2.2]
  simp [transferEffect, h1, h2]

theorem elsewhere_bal {s t u : State} {a : Addr} (e1 : step Demo.env opening s = some t) (e2 : step Demo.env selling t = some u)
    (h1 : a ≠ .user 3) (h2 : a ≠ s.params.feeCollector) (h4 : a ≠ .pairEscrow 2) (d : Denom) : s.bank.bal a d = u.bank.bal a d := by
  have g1 : s.bank.bal a d = t.bank.bal a d := by
    rcases step_accepted e1 with g | ⟨-, rfl⟩
    · have g : createPair ⟨3, .native 1, .native 0⟩ s = some t := of_if (v := MsgCreatePair.validateBasic ⟨3, .native 1, .native 0⟩) g
      unfold createPair at g
      split at g
      · cases g
      · split at g
        · cases g
        · rename_i b hb
          cases g
          exact send_bal hb h1 h2 d
    · rfl
  rw [g1]
  rcases step_accepted e2 with g | ⟨-, rfl⟩
  · have g : limitOrder ⟨3, 2, .sell, ⟨.native 1, 30000⟩, .native 0, 990000000000000000, 30000, 100⟩ t = some u := of_if
      (v := MsgLimitOrder.validateBasic ⟨3, 2, .sell, ⟨.native 1, 30000⟩, .native 0, 990000000000000000, 30000, 100⟩) g
    obtain ⟨p, r, b, g3, _, _, _, _, _, _, _, _, g9, g10⟩ := placeOrder_some g
    subst g10
    exact send_bal g9 h1 (by rw [getPair_id g3]; exact h4) d
  · rfl

/-- What happens elsewhere in the example below: another pair with an order, and time for the orders. -/
def busy : List Op := opened ++ [buying] ++ [.endBlock] ++ [.beginBlock 2 10] ++ [opening] ++ [selling]

/-- Non-vacuity: the buyer places another order on the market, alone or with another pair and its order in the chain: the same market,
the same balances of the buyer and of the escrow account; accepted in both. -/
example : ∃ s t, ReachableWith Demo.env CollectorsApart s ∧ ReachableWith Demo.env CollectorsApart t ∧ SameMarket 1 s t ∧
    s.pairs.length = 1 ∧ t.pairs.length = 2 ∧ Addressed 1 s 2 buying ∧ (∀ d, s.bank.bal (.user 2) d = t.bank.bal (.user 2) d) ∧
    (∀ d, s.bank.bal (.pairEscrow 1) d = t.bank.bal (.pairEscrow 1) d) ∧ (accepted Demo.env buying s).isSome = true ∧
    (accepted Demo.env buying t).isSome = true := by
  have hr : ReachableWith Demo.env CollectorsApart (after (opened ++ [buying] ++ [.endBlock] ++ [.beginBlock 2 10])) :=
    after_reachable (by intro p hp; simp [opened, buying] at hp) (by decide +kernel)
  have hq : ∃ p ∈ (after (opened ++ [buying] ++ [.endBlock] ++ [.beginBlock 2 10])).pairs, p.id = 1 := by decide +kernel
  have hsee : Sees Demo.env 1 [] (after (opened ++ [buying] ++ [.endBlock] ++ [.beginBlock 2 10])) (after busy) :=
    .elsewhere opening trivial (after_step (by decide +kernel))
      (.elsewhere selling (by show 2 ≠ 1; decide) (after_step (by decide +kernel)) (.done _))
  have e1 := after_step (ops := opened ++ [buying] ++ [.endBlock] ++ [.beginBlock 2 10]) (op := opening) (by decide +kernel)
  have e2 := after_step (ops := opened ++ [buying] ++ [.endBlock] ++ [.beginBlock 2 10] ++ [opening]) (op := selling) (by decide +kernel)
  refine ⟨_, _, hr, after_reachable (by intro p hp; simp [busy, opened, buying, opening, selling] at hp) (by decide +kernel),
    C84_unseen_history hr hq hsee, by decide +kernel, by decide +kernel, .limitOrder _ rfl rfl, ?_, ?_, by decide +kernel,
    by decide +kernel⟩
  · exact elsewhere_bal e1 e2 (by decide) (by decide +kernel) (by decide)
  · exact elsewhere_bal e1 e2 (by decide) (by decide +kernel) (by decide)

/-- A quiet market. -/
def quiet : List Op := [.setParams { Demo.params with tickPrec := 4 }, .createPair ⟨1, .native 1, .native 0⟩]

/-- **C84, its limit**: that the batch goes through is needed.  A market that was left alone is stopped by another one: the end of
the block succeeds before, and halts the chain after the orders and pools of `C61_end_block_halts` are placed elsewhere. -/
theorem C84_other_market_halts : ∃ s t, ReachableWith Demo.env CollectorsApart s ∧ (∃ p ∈ s.pairs, p.id = 1) ∧ Sees Demo.env 1 [] s t ∧
    SameMarket 1 s t ∧ (step Demo.env .endBlock s).isSome = true ∧ step Demo.env .endBlock t = none := by
  have hr : ReachableWith Demo.env CollectorsApart (after quiet) := after_reachable (by
    intro p hp
    simp only [quiet, List.mem_cons, List.not_mem_nil, or_false, Op.setParams.injEq, reduceCtorEq] at hp
    subst hp
    exact fun id => ⟨by show Addr.other 2 ≠ _; simp, by show Addr.other 1 ≠ _; simp⟩) (by decide +kernel)
  have hq : ∃ p ∈ (after quiet).pairs, p.id = 1 := by decide +kernel
  have hsee : Sees Demo.env 1 [] (after quiet) (after (quiet ++ [.createPair ⟨1, .native 0, .native 1⟩]
      ++ [.createRangedPool ⟨1, 2, [⟨.native 0, 1000000⟩], 10000000000000000, 1000000000000000000000, 10000000000000000⟩]
      ++ [.createRangedPool ⟨1, 2, [⟨.native 0, 1000000⟩], 10000000000000000, 1000000000000000000000, 10000000000000000⟩]
      ++ [.limitOrder ⟨3, 2, .sell, ⟨.native 0, 10200⟩, .native 1, 9900000000000000, 10200, 100⟩]
      ++ [.limitOrder ⟨2, 2, .buy, ⟨.native 1, 110⟩, .native 0, 10030000000000000, 10398, 100⟩])) :=
    .elsewhere _ (by exact trivial) (after_step (by decide +kernel))
      (.elsewhere _ (by show 2 ≠ 1; decide) (after_step (by decide +kernel))
      (.elsewhere _ (by show 2 ≠ 1; decide) (after_step (by decide +kernel))
      (.elsewhere _ (by show 2 ≠ 1; decide) (after_step (by decide +kernel))
      (.elsewhere _ (by show 2 ≠ 1; decide) (after_step (by decide +kernel)) (.done _)))))
  exact ⟨_, _, hr, hq, hsee, C84_unseen_history hr hq hsee, by decide +kernel, by
    rw [← Option.not_isSome_iff_eq_none]; decide +kernel⟩

end Verif.Props

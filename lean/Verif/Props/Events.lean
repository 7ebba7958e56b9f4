import Verif.Proofs.EventsIds
import Verif.Proofs.Example
/-! # C86: the events tell the truth -/
namespace Verif.Props
open Verif Verif.Dex Verif.Spec Verif.Amm

/-- **C86** A client that reads only the events knows every stored order exactly: its terms, what is left of it, and whether it is
finished, how and with which amounts. -/
theorem C86_orders_known {env : Env} {ops : List Op} {s0 s : State} (hg : Genesis s0) (h : run env ops s0 = some s) :
    ∀ o ∈ s.orders, toldOrder o.pairId o.id (runEv env ops s0) = .knows (viewOf o) :=
  fun o ho => (tells_history hg h).1.here o ho

/-- **C86** What the events said about an id without stored order is nothing at all, or a whole story with an end: placed once, with a
result whose amounts are those the matches add up to. -/
theorem C86_orders_gone {env : Env} {ops : List Op} {s0 s : State} (hg : Genesis s0) (h : run env ops s0 = some s) {p i : Nat}
    (hn : ∀ o ∈ s.orders, ¬ (o.pairId = p ∧ o.id = i)) :
    toldOrder p i (runEv env ops s0) = .unknown ∨ ∃ v, toldOrder p i (runEv env ops s0) = .knows v ∧ v.Closed :=
  (tells_history hg h).1.gone (p, i) (fun o ho e => hn o ho (by simpa [OrderRec.key] using e))

/-- **C86** The client of an order is never confused: the id is placed at most once, matches and results are about orders placed before,
the result comes at most once, and owner, direction, coins and amount are always those of the placement. -/
theorem C86_orders_never_confused {env : Env} {ops : List Op} {s0 s : State} (hg : Genesis s0) (h : run env ops s0 = some s) (p i : Nat) :
    toldOrder p i (runEv env ops s0) ≠ .confused := by
  by_cases e : ∃ o ∈ s.orders, o.pairId = p ∧ o.id = i
  · obtain ⟨o, ho, rfl, rfl⟩ := e
    rw [C86_orders_known hg h o ho]; simp
  · push Not at e
    rcases C86_orders_gone hg h (p := p) (i := i) (fun o ho c => e o ho c.1 c.2) with h1 | ⟨v, h1, _⟩ <;> rw [h1] <;> simp

/-- **C86** An order in the stores is finished exactly if its result was announced. -/
theorem C86_result_iff_finished {env : Env} {ops : List Op} {s0 s : State} (hg : Genesis s0) (h : run env ops s0 = some s)
    {o : OrderRec} (ho : o ∈ s.orders) :
    ∃ v, toldOrder o.pairId o.id (runEv env ops s0) = .knows v ∧ (v.result = none ↔ Unfinished o) ∧
      v.openAmt = o.openAmt ∧ v.remaining = o.remaining ∧ v.received = o.received ∧
      (∀ r, v.result = some r → r = ⟨o.openAmt, o.remaining, o.received, o.status⟩) := by
  refine ⟨_, C86_orders_known hg h o ho, ?_, rfl, rfl, rfl, ?_⟩
  · unfold viewOf Unfinished
    cases e : o.status <;> simp
  · intro r hr
    unfold viewOf at hr
    cases e : o.status <;> simp [e] at hr ⊢ <;> exact hr.symm

/-- Reading a result twice, or the result of an unknown order, confuses. -/
private theorem confused_stays {p i : Nat} : ∀ (log : List Event), log.foldl (readOrder p i) .confused = .confused
  | [] => rfl
  | e :: log => by
    have : readOrder p i .confused e = .confused := by cases e <;> simp [readOrder]
    rw [List.foldl_cons, this]; exact confused_stays log

/-- The event announces the result of order `i` of pair `p`. -/
def announcesResult (p i : Nat) : Event → Bool
  | .orderResult _ _ p' i' _ _ _ _ _ _ => p' = p ∧ i' = i
  | _ => false

/-- The event announces the placement of order `i` of pair `p`. -/
def announcesOrder (p i : Nat) : Event → Bool
  | .orderPlaced _ _ p' _ _ _ _ _ i' _ _ _ => p' = p ∧ i' = i
  | _ => false

private theorem result_once {p i : Nat} : ∀ (log : List Event) (t : Told KnownOrder), log.foldl (readOrder p i) t ≠ .confused →
    log.countP (announcesResult p i) ≤ 1 ∧ ((∃ v, t = .knows v ∧ v.result ≠ none) → log.countP (announcesResult p i) = 0)
  | [], _, _ => by simp
  | e :: log, t, h => by
    rw [List.foldl_cons] at h
    have ih := result_once log _ h
    have hne : readOrder p i t e ≠ .confused := fun c => by rw [c] at h; exact h (confused_stays log)
    rw [List.countP_cons]
    cases ha : announcesResult p i e with
    | false =>
      simp only [Bool.false_eq_true, if_false, add_zero]
      refine ⟨ih.1, ?_⟩
      rintro ⟨v, rfl, hv⟩
      refine ih.2 ?_
      cases e <;> simp only [readOrder] at hne ⊢ <;> try exact ⟨v, rfl, hv⟩
      · split at hne
        · exact absurd rfl hne
        · rename_i c; rw [if_neg c]; exact ⟨v, rfl, hv⟩
      · split at hne
        · rename_i c
          rw [if_pos c]
          split at hne
          · rename_i c; rw [if_pos c]; exact ⟨_, rfl, hv⟩
          · exact absurd rfl hne
        · rename_i c; rw [if_neg c]; exact ⟨v, rfl, hv⟩
      · rw [if_neg (by simpa [announcesResult] using ha)]; exact ⟨v, rfl, hv⟩
    | true =>
      cases e <;> simp only [announcesResult, Bool.false_eq_true] at ha
      rename_i dir orderer p' i' amount openAmt offer remaining received status
      simp only [decide_eq_true_eq] at ha
      simp only [readOrder, if_pos ha] at hne ih
      cases t with
      | unknown => exact absurd rfl hne
      | confused => exact absurd rfl hne
      | knows v =>
        simp only at hne ih
        split at hne
        · rename_i c
          rw [if_pos c] at ih
          have := ih.2 ⟨_, rfl, by simp⟩
          rw [this]
          refine ⟨by simp, ?_⟩
          rintro ⟨w, hw, hr⟩
          cases hw
          exact absurd c.1 hr
        · exact absurd rfl hne

/-- **C86** No history announces two results of an order. -/
theorem C86_one_result {env : Env} {ops : List Op} {s0 s : State} (hg : Genesis s0) (h : run env ops s0 = some s) (p i : Nat) :
    (runEv env ops s0).countP (announcesResult p i) ≤ 1 :=
  (result_once _ .unknown (C86_orders_never_confused hg h p i)).1

/-- **C86** The same for deposit requests: the events tell the stored request, its outcome, the coins accepted and refunded and the pool
coins minted. -/
theorem C86_deposits_known {env : Env} {ops : List Op} {s0 s : State} (hg : Genesis s0) (h : run env ops s0 = some s) :
    (∀ r ∈ s.deposits, toldDeposit r.poolId r.id (runEv env ops s0) = .knows (viewOfDeposit r)) ∧
    ∀ p i, (∀ r ∈ s.deposits, ¬ (r.poolId = p ∧ r.id = i)) → toldDeposit p i (runEv env ops s0) = .unknown ∨
      ∃ v, toldDeposit p i (runEv env ops s0) = .knows v ∧ v.result ≠ none :=
  ⟨fun r hr => (tells_history hg h).2.1.here r hr,
    fun p i hn => (tells_history hg h).2.1.gone (p, i) (fun r hr e => hn r hr (by simpa [DepReq.key] using e))⟩

/-- **C86** The same for withdraw requests. -/
theorem C86_withdraws_known {env : Env} {ops : List Op} {s0 s : State} (hg : Genesis s0) (h : run env ops s0 = some s) :
    (∀ r ∈ s.withdraws, toldWithdraw r.poolId r.id (runEv env ops s0) = .knows (viewOfWithdraw r)) ∧
    ∀ p i, (∀ r ∈ s.withdraws, ¬ (r.poolId = p ∧ r.id = i)) → toldWithdraw p i (runEv env ops s0) = .unknown ∨
      ∃ v, toldWithdraw p i (runEv env ops s0) = .knows v ∧ v.result ≠ none :=
  ⟨fun r hr => (tells_history hg h).2.2.here r hr,
    fun p i hn => (tells_history hg h).2.2.gone (p, i) (fun r hr e => hn r hr (by simpa [WdReq.key] using e))⟩

/-- **C86** The events that announce pairs and pools are, in order, the stored pairs and pools. -/
theorem C86_pairs_and_pools {env : Env} {ops : List Op} {s0 s : State} (hg : Genesis s0) (h : run env ops s0 = some s) :
    toldPairs (runEv env ops s0) = s.pairs.map (fun p => (p.id, p.base, p.quote)) ∧
    toldPools (runEv env ops s0) = s.pools.map (fun p => (p.id, p.pairId, p.creator, p.range.isSome)) :=
  ids_history hg h

/-- **C86** A `create_pool` event announces the next pool id and the supply of its pool coin, and for a basic pool the coins that went to
its reserve (besides the fee, if that is where fees go). -/
theorem C86_pool_minted {env : Env} {op : Op} {s s' : State} (hr : Reachable env s) (h : step env op s = some s') {ranged : Bool}
    {creator pairId id : Nat} {coins : Coins} {minted : Int}
    (he : Event.createPool ranged creator pairId coins id minted ∈ stepEv env op s) :
    id = s.lastPoolId + 1 ∧ s'.bank.supply (.pool id) = minted ∧ 0 < minted ∧
      (ranged = false → ∀ d, s'.bank.bal (.poolReserve id) d = s.bank.bal (.poolReserve id) d + amountOf coins d +
        (if s.params.feeCollector = .poolReserve id then amountOf s.params.poolCreationFee d else 0)) := by
  obtain ⟨s0, ops, hg, hr⟩ := hr
  exact minted_tells (run_wf (genesis_wf hg) hr) h he

/-- **C86** A message has events exactly if it is accepted. -/
theorem C86_events_iff_accepted {env : Env} {op : Op} {s : State} (hr : Reachable env s) (hm : IsMessage op) :
    stepEv env op s ≠ [] ↔ (accepted env op s).isSome = true := by
  obtain ⟨s0, ops, hg, hr⟩ := hr
  exact events_iff (run_wf (genesis_wf hg) hr) hm

/-! ## Concrete cases -/

/-- The demo history: two orders are placed and trade; the first is finished, and deleted at the start of the next block; the second
stays; a deposit request is executed. -/
example : Genesis Demo.s0 ∧
    (run Demo.env Demo.traded Demo.s0).map (fun s => (s.orders.map (·.id), s.deposits.length, s.pools.length)) = some ([2], 0, 1) ∧
    toldOrder 1 1 (runEv Demo.env Demo.traded Demo.s0) = .knows ⟨.mm, 2, .buy, ⟨.native 1, 2020⟩, .native 0, 1010000000000000000, 2000,
      1, 100, 0, 40, 2000, some ⟨0, 40, 2000, .completed⟩⟩ ∧
    toldOrder 1 2 (runEv Demo.env Demo.traded Demo.s0) = .knows ⟨.limit, 3, .sell, ⟨.native 0, 30000⟩, .native 1, 990000000000000000, 30000,
      1, 100, 7798, 7798, 21979, none⟩ ∧
    toldOrder 1 3 (runEv Demo.env Demo.traded Demo.s0) = .unknown ∧
    toldDeposit 1 1 (runEv Demo.env Demo.traded Demo.s0) = .knows ⟨2, [⟨.native 0, 100000⟩, ⟨.native 1, 50000⟩],
      some ⟨[⟨.native 1, 50000⟩, ⟨.native 0, 51016⟩], [⟨.native 0, 48984⟩, ⟨.native 1, 0⟩], ⟨.pool 1, 25252525252⟩, .succeeded⟩⟩ ∧
    toldPairs (runEv Demo.env Demo.traded Demo.s0) = [(1, .native 0, .native 1)] ∧
    toldPools (runEv Demo.env Demo.traded Demo.s0) = [(1, 1, 1, false)] :=
  ⟨Demo.genesis, by decide +kernel, by decide +kernel, by decide +kernel, by decide +kernel, by decide +kernel, by decide +kernel,
    by decide +kernel⟩

/-- An accepted message and a refused one. -/
example : (accepted Demo.env (.createPair ⟨1, .native 0, .native 1⟩) Demo.s0).isSome = true ∧
    accepted Demo.env (.cancelOrder ⟨2, 1, 1⟩) Demo.s0 = none ∧ IsMessage (.cancelOrder ⟨2, 1, 1⟩) := by
  refine ⟨by decide +kernel, ?_, trivial⟩
  have : (accepted Demo.env (.cancelOrder ⟨2, 1, 1⟩) Demo.s0).isSome = false := by decide +kernel
  simpa using this

/-- A client that hears of a result twice is confused. -/
example : toldOrder 1 1 [.orderPlaced .limit 2 1 .buy ⟨.native 1, 10⟩ (.native 0) 1 10 1 1 0 ⟨.native 1, 0⟩,
    .orderResult .buy 2 1 1 10 10 ⟨.native 1, 10⟩ ⟨.native 1, 10⟩ ⟨.native 0, 0⟩ .canceled,
    .orderResult .buy 2 1 1 10 10 ⟨.native 1, 10⟩ ⟨.native 1, 10⟩ ⟨.native 0, 0⟩ .expired] = .confused := by decide +kernel

end Verif.Props

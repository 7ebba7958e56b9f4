import Verif.Proofs.EventsTrue
import Verif.Proofs.SaneDemo
/-! # C87: the log is an account statement -/
namespace Verif.Props
open Verif Verif.Dex Verif.Spec Verif.Amm

/-- **C87** In every step, the balance of an account other than the escrow of a pair changes by exactly what the events of the step say,
unless the step is one whose events leave that account out (`ToldOf`). -/
theorem C87_step_balance {env : Env} {op : Op} {s s' : State} (hr : Reachable env s) (h : step env op s = some s') {a : Addr}
    (ha : ∀ id, a ≠ .pairEscrow id) (ht : ToldOf a s op) (d : Denom) :
    s'.bank.bal a d = s.bank.bal a d + total (said a d) (stepEv env op s) := by
  obtain ⟨s0, ops, hg, hr'⟩ := hr
  exact paid_step (run_wf (genesis_wf hg) hr') (Reachable.clean ⟨s0, ops, hg, hr'⟩) ha ht h

/-- **C87** A whole history: the balance is the first balance plus everything the log says. -/
theorem C87_history_balance {env : Env} {ops more : List Op} {s0 s s' : State} (hg : Genesis s0) (h : run env ops s0 = some s)
    (h' : run env more s = some s') {a : Addr} (ha : ∀ id, a ≠ .pairEscrow id) (ht : ToldThrough env a more s) (d : Denom) :
    s'.bank.bal a d = s.bank.bal a d + total (said a d) (runEv env more s) :=
  paid_run ha (run_wf (genesis_wf hg) h) (Reachable.clean ⟨s0, ops, hg, h⟩) h' ht

/-- **C87** The supply of every pool coin is what the log says was minted and burnt. -/
theorem C87_supply {env : Env} {ops more : List Op} {s0 s s' : State} (hg : Genesis s0) (h : run env ops s0 = some s)
    (h' : run env more s = some s') (id : Nat) :
    s'.bank.supply (.pool id) = s.bank.supply (.pool id) + total (saidSupply id) (runEv env more s) :=
  supply_run id (run_wf (genesis_wf hg) h) (Reachable.clean ⟨s0, ops, hg, h⟩) h'

/-- **C87** Every event repeats the message that caused it; the offered coin of an order message is split into what the order took and
what was refunded; the ids listed by a cancellation of all orders are those of the cancelable orders asked for; results and matches
come only with the end of a block, results of orders also with a cancellation. -/
theorem C87_repeats {env : Env} {op : Op} {s : State} (hr : Reachable env s) : ∀ e ∈ stepEv env op s, Repeats op s e := by
  obtain ⟨s0, ops, hg, hr⟩ := hr
  exact step_repeats (run_wf (genesis_wf hg) hr)

/-- **C87** In a sane chain, a match that is announced consists of trades of positive amounts: for an order, one that was stored before
the block ended, in its direction and at prices its owner accepts; for a pool, one of the pair. -/
theorem C87_matches_are_trades {env : Env} {op : Op} {s s' : State} (hc : SaneChain env s) (hs : op = .endBlock → SaneState env s)
    (h : step env op s = some s') : ∀ e ∈ stepEv env op s, MatchTrue s e :=
  step_true (sane_of_chain hc) hs h

/-- **C87** The matched amount that is announced is positive and is the base coin: what a buyer receives and a seller pays. -/
theorem C87_matched_is_base {env : Env} {op : Op} {s s' : State} (hc : SaneChain env s) (hs : op = .endBlock → SaneState env s)
    (h : step env op s = some s') {dir : Dir} {matched : Int} {paid received : Coin} {owner pair id : Nat}
    (he : .userMatched dir owner pair id matched paid received ∈ stepEv env op s ∨
      .poolMatched dir pair id matched paid received ∈ stepEv env op s) :
    0 < matched ∧ (dir = .buy → received.amt = matched) ∧ (dir = .sell → paid.amt = matched) := by
  have key : ∀ {ok : Int → Prop}, TradedAs dir ok matched paid.amt received.amt →
      0 < matched ∧ (dir = .buy → received.amt = matched) ∧ (dir = .sell → paid.amt = matched) := by
    rintro ok ⟨l, h1, h2, h3, h4, h5⟩
    refine ⟨?_, ?_, ?_⟩
    · rw [h3]
      cases l with
      | nil => exact absurd rfl h1
      | cons f l =>
        have hf := (h2 f (by simp)).1
        have hl : 0 ≤ total (fun f : Trade => f.amt) l := total_nonneg' (fun g hg => le_of_lt (h2 g (by simp [hg])).1)
        have : total (fun f : Trade => f.amt) (f :: l) = f.amt + total (fun f : Trade => f.amt) l := by
          unfold total; rw [List.map_cons, List.sum_cons]
        omega
    · rintro rfl
      rw [h5, h3]; rfl
    · rintro rfl
      rw [h4, h3]; rfl
  rcases he with he | he
  · obtain ⟨o, _, _, _, _, ht⟩ := C87_matches_are_trades hc hs h _ he
    exact key ht
  · exact key (C87_matches_are_trades hc hs h _ he).2

/-! ## Concrete cases -/

instance (a : Addr) (s : State) (op : Op) : Decidable (ToldOf a s op) := by
  cases op <;> unfold ToldOf <;> infer_instance

instance toldThroughDec (env : Env) (a : Addr) : ∀ (ops : List Op) (s : State), Decidable (ToldThrough env a ops s)
  | [], _ => isTrue trivial
  | op :: ops, s => by
    unfold ToldThrough
    refine @instDecidableAnd _ _ inferInstance ?_
    cases step env op s with
    | none => exact isTrue trivial
    | some s' => exact toldThroughDec env a ops s'

/-- The third user of the demo sells, the first pool trades and takes a deposit, the escrow for requests is empty at the end. -/
example : ToldThrough Demo.env (.user 3) Demo.traded Demo.s0 ∧ ToldThrough Demo.env .globalEscrow Demo.traded Demo.s0 ∧
    (run Demo.env Demo.traded Demo.s0).map (fun s => (s.bank.bal (.user 3) (.native 0), s.bank.bal (.user 3) (.native 1),
      s.bank.bal .globalEscrow (.native 0), s.bank.supply (.pool 1))) =
        some (1000000000 - 30000, 1000000000 + 21979, 0, 1025252525252) ∧
    total (said (.user 3) (.native 0)) (runEv Demo.env Demo.traded Demo.s0) = - 30000 ∧
    total (said (.user 3) (.native 1)) (runEv Demo.env Demo.traded Demo.s0) = 21979 ∧
    total (saidSupply 1) (runEv Demo.env Demo.traded Demo.s0) = 1025252525252 := by
  refine ⟨by decide +kernel, by decide +kernel, by decide +kernel, by decide +kernel, by decide +kernel, by decide +kernel⟩

/-- The pool of the demo, from its creation on: it sells to the orders, and takes the deposit. -/
example : ((run Demo.env (Demo.traded.take 2) Demo.s0).map fun s => decide (ToldThrough Demo.env (.poolReserve 1) (Demo.traded.drop 2) s ∧
    s.bank.bal (.poolReserve 1) (.native 1) = 2000000 ∧ total (said (.poolReserve 1) (.native 1)) (runEv Demo.env (Demo.traded.drop 2) s) = 30000)) = some true := by decide +kernel

/-- What the limit order of the demo repeats. -/
example : ∃ s, Reachable Demo.env s ∧ ∃ e ∈ stepEv Demo.env (.limitOrder ⟨3, 1, .sell, ⟨.native 0, 30000⟩, .native 1,
    990000000000000000, 30000, 100⟩) s, ∃ a b c d e' f g h i j k l, e = .orderPlaced a b c d e' f g h i j k l := by
  obtain ⟨s, h1, h2⟩ := Demo.reach (Demo.placed.take 4) (fun s => stepEv Demo.env (.limitOrder ⟨3, 1, .sell, ⟨.native 0, 30000⟩, .native 1,
    990000000000000000, 30000, 100⟩) s = [.orderPlaced .limit 3 1 .sell ⟨.native 0, 30000⟩ (.native 1) 990000000000000000 30000 2 1 100
      ⟨.native 0, 0⟩]) (by decide +kernel)
  exact ⟨s, h1, _, by rw [h2]; exact List.mem_singleton_self _, _, _, _, _, _, _, _, _, _, _, _, _, rfl⟩

/-- A sane state of the demo whose end of block announces matches of two orders and a pool. -/
example : ∃ s, SaneChain Demo.env s ∧ SaneState Demo.env s ∧ ((step Demo.env .endBlock s).isSome = true ∧
    (stepEv Demo.env .endBlock s).countP (fun e => match e with | .userMatched .. => true | _ => false) = 2 ∧
    (stepEv Demo.env .endBlock s).countP (fun e => match e with | .poolMatched .. => true | _ => false) = 1) :=
  Demo.saneReach Demo.placed _ (by decide +kernel)

end Verif.Props

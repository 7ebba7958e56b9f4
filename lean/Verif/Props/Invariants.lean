import Verif.Model.Invariants
import Verif.Props.Escrow
import Verif.Proofs.Genesis
/-! # C62: the module's own invariant checks -/
namespace Verif.Props
open Verif Verif.Amm Verif.Dex Verif.Spec

theorem notAllGTE_iff {b : Bank} {a : Addr} {cs : Coins} (hb : ∀ d, 0 ≤ b.bal a d) :
    notAllGTE b a cs = true ↔ ∃ d, b.bal a d < amountOf cs d := by
  unfold notAllGTE
  rw [List.any_eq_true]
  constructor
  · rintro ⟨c, _, h⟩
    exact ⟨c.denom, by simpa using h⟩
  · rintro ⟨d, h⟩
    by_cases hm : ∃ c ∈ cs, c.denom = d
    · obtain ⟨c, hc, rfl⟩ := hm
      exact ⟨c, hc, by simpa using h⟩
    · push Not at hm
      rw [amountOf_of_not_mem hm] at h
      have := hb d
      omega

theorem amountOf_deposits (l : List DepReq) (d : Denom) :
    amountOf ((l.filter (fun r => r.status == .notExecuted)).flatMap (fun r => r.coins)) d =
      total (fun r => if r.status = .notExecuted then amountOf r.coins d else 0) l := by
  unfold total
  induction l with
  | nil => rfl
  | cons r l ih =>
    by_cases h : r.status = .notExecuted
    · rw [List.filter_cons_of_pos (by simp [h]), List.flatMap_cons, amountOf_append, ih, List.map_cons, List.sum_cons, if_pos h]
    · rw [List.filter_cons_of_neg (by simp [h]), ih, List.map_cons, List.sum_cons, if_neg h, zero_add]

theorem amountOf_withdraws (l : List WdReq) (d : Denom) :
    amountOf ((l.filter (fun r => r.status == .notExecuted)).map (fun r => r.coin)) d =
      total (fun r => if r.status = .notExecuted ∧ r.coin.denom = d then r.coin.amt else 0) l := by
  unfold total
  induction l with
  | nil => rfl
  | cons r l ih =>
    by_cases h : r.status = .notExecuted
    · rw [List.filter_cons_of_pos (by simp [h]), List.map_cons, amountOf_cons, ih, List.map_cons, List.sum_cons]
      simp [h]
    · rw [List.filter_cons_of_neg (by simp [h]), ih, List.map_cons, List.sum_cons]
      simp [h]

theorem amountOf_offers (l : List OrderRec) (pid : Nat) (d : Denom) :
    amountOf (((l.filter (fun o => o.pairId == pid)).filter (fun o => !o.status.shouldBeDeleted)).map
        (fun o => (⟨o.offerDenom, o.remaining⟩ : Coin))) d =
      total (fun o => if o.pairId = pid ∧ o.offerDenom = d ∧ Unfinished o then o.remaining else 0) l := by
  unfold total
  induction l with
  | nil => rfl
  | cons o l ih =>
    have hu : Unfinished o ↔ o.status.shouldBeDeleted = false := by
      unfold Unfinished
      cases o.status <;> simp [OStatus.shouldBeDeleted, OStatus.isCanceledOrExpired]
    by_cases h : o.pairId = pid
    · rw [List.filter_cons_of_pos (by simp [h])]
      by_cases h2 : o.status.shouldBeDeleted = true
      · rw [List.filter_cons_of_neg (by simp [h2]), ih, List.map_cons, List.sum_cons]
        simp [hu, h2]
      · rw [List.filter_cons_of_pos (by simp [h2]), List.map_cons, amountOf_cons, ih, List.map_cons, List.sum_cons]
        simp [hu, h2, h]
    · rw [List.filter_cons_of_neg (by simp [h]), ih, List.map_cons, List.sum_cons]
      simp [h]

/-- **C62** The checks report exactly what they are named after, in every reachable state: that the global escrow account lacks
coins of pending deposits, or of pending withdrawals, or that the escrow account of some pair lacks remaining offer coins of
unfinished orders, or that an active pool has no pool coins, or that a stored counter of market-making orders is zero or wrong. -/
theorem C62_checks_exact {env : Env} {s : State} (h : Reachable env s) {recs : List NumMMRecord} (hr : ListsCounters s recs) :
    (depositEscrowBroken s = true ↔ ∃ d, s.bank.bal .globalEscrow d <
      total (fun r => if r.status = .notExecuted then amountOf r.coins d else 0) s.deposits) ∧
    (poolCoinEscrowBroken s = true ↔ ∃ d, s.bank.bal .globalEscrow d <
      total (fun r => if r.status = .notExecuted ∧ r.coin.denom = d then r.coin.amt else 0) s.withdraws) ∧
    (offerEscrowBroken s = true ↔ ∃ p ∈ s.pairs, ∃ d, escrowSlack s p.id d < 0) ∧
    (poolStatusBroken s = true ↔ ∃ p ∈ s.pools, p.disabled = false ∧ s.bank.supply (.pool p.id) = 0) ∧
    (numMMBroken s recs = true ↔ ∃ a p n, s.numMM a p = some n ∧ (n = 0 ∨
      n ≠ (s.orders.filter (fun o => decide (o.typ = .mm ∧ Unfinished o ∧ o.orderer = a ∧ o.pairId = p))).length)) := by
  have hw := h.wf
  refine ⟨?_, ?_, ?_, ?_, ?_⟩
  · unfold depositEscrowBroken
    rw [notAllGTE_iff (fun d => hw.bankNN _ d)]
    simp only [amountOf_deposits]
  · unfold poolCoinEscrowBroken
    rw [notAllGTE_iff (fun d => hw.bankNN _ d)]
    simp only [amountOf_withdraws]
  · unfold offerEscrowBroken
    rw [List.any_eq_true]
    refine exists_congr (fun p => and_congr_right (fun _ => ?_))
    rw [notAllGTE_iff (fun d => hw.bankNN _ d)]
    refine exists_congr (fun d => ?_)
    unfold State.ordersOf escrowSlack
    rw [amountOf_offers]
    omega
  · unfold poolStatusBroken
    simp
  · have hc : ∀ a p, countMM s a p =
        (s.orders.filter (fun o => decide (o.typ = .mm ∧ Unfinished o ∧ o.orderer = a ∧ o.pairId = p))).length := by
      intro a p
      unfold countMM
      rw [List.countP_eq_length_filter]
      congr 1
      refine List.filter_congr (fun o _ => ?_)
      have hu : Unfinished o ↔ o.status.shouldBeDeleted = false := by
        unfold Unfinished
        cases o.status <;> simp [OStatus.shouldBeDeleted, OStatus.isCanceledOrExpired]
      rw [Bool.eq_iff_iff]
      simp [hu, and_assoc]
    unfold numMMBroken
    rw [List.any_eq_true]
    constructor
    · rintro ⟨r, hr', hb⟩
      refine ⟨r.orderer, r.pairId, r.num, (hr.2 r).1 hr', ?_⟩
      rw [← hc]
      simp only [Bool.or_eq_true, beq_iff_eq, bne_iff_ne] at hb
      rcases hb with hb | hb
      · by_cases e : r.num = 0
        · exact Or.inl e
        · exact Or.inr (by omega)
      · exact Or.inr hb
    · rintro ⟨a, p, n, e, hb⟩
      refine ⟨⟨a, p, n⟩, (hr.2 ⟨a, p, n⟩).2 e, ?_⟩
      rw [← hc] at hb
      simp only [Bool.or_eq_true, beq_iff_eq, bne_iff_ne]
      rcases hb with rfl | hb
      · by_cases e : countMM s a p = 0
        · exact Or.inl e
        · exact Or.inr (by omega)
      · exact Or.inr hb

/-- **C62 (part)** In every reachable state the checks of pending deposits, pending withdrawals, pool status and market-making
counters pass; in a sane chain in which no pair has a base coin shortfall all of them pass.  Missing: the check of the remaining
offer coins otherwise, which can fail (`C62_offer_check_fails`). -/
theorem C62_checks_pass_partial {env : Env} {s : State} (h : Reachable env s) {recs : List NumMMRecord} (hr : ListsCounters s recs) :
    depositEscrowBroken s = false ∧ poolCoinEscrowBroken s = false ∧ poolStatusBroken s = false ∧ numMMBroken s recs = false ∧
    (SaneChain env s → (∀ p ∈ s.pairs, s.shortfall p.id ≤ 0) → anyBroken s recs = false) := by
  have hw := h.wf
  obtain ⟨e1, e2, e3, e4, e5⟩ := C62_checks_exact h hr
  have hpd : ∀ d, 0 ≤ pendingDeposits s.deposits d := by
    intro d
    unfold pendingDeposits
    apply List.sum_nonneg
    intro x hx
    obtain ⟨r, hr', rfl⟩ := List.mem_map.1 hx
    split
    · exact amountOf_nonneg (fun c hc => le_of_lt ((hw.deps r hr').2.2.1 c hc)) d
    · exact le_refl _
  have hpw : ∀ d, 0 ≤ pendingWithdraws s.withdraws d := by
    intro d
    unfold pendingWithdraws
    apply List.sum_nonneg
    intro x hx
    obtain ⟨r, hr', rfl⟩ := List.mem_map.1 hx
    split
    · exact amountOf_nonneg (fun c hc => by rw [List.mem_singleton.1 hc]; exact le_of_lt (hw.wds r hr').2.2.1) d
    · exact le_refl _
  have b1 : depositEscrowBroken s = false := by
    rw [Bool.eq_false_iff, Ne, e1]
    rintro ⟨d, hd⟩
    have := hw.escrow d
    have := hpw d
    have : total (fun r => if r.status = .notExecuted then amountOf r.coins d else 0) s.deposits = pendingDeposits s.deposits d := rfl
    omega
  have b2 : poolCoinEscrowBroken s = false := by
    rw [Bool.eq_false_iff, Ne, e2]
    rintro ⟨d, hd⟩
    have := hw.escrow d
    have := hpd d
    have : total (fun r => if r.status = .notExecuted ∧ r.coin.denom = d then r.coin.amt else 0) s.withdraws =
        pendingWithdraws s.withdraws d := by
      unfold total pendingWithdraws
      congr 1
      refine List.map_congr_left (fun r _ => ?_)
      rw [amountOf_cons, amountOf_nil, add_zero]
      by_cases f1 : r.status = .notExecuted <;> simp [f1]
    omega
  have b4 : poolStatusBroken s = false := by
    rw [Bool.eq_false_iff, Ne, e4]
    rintro ⟨p, hp, f1, f2⟩
    have := hw.activeSupply p hp f1
    omega
  have b5 : numMMBroken s recs = false := by
    rw [Bool.eq_false_iff, Ne, e5]
    rintro ⟨a, p, n, f1, f2⟩
    rw [hw.mm] at f1
    have hl : liveMM s.orders a p =
        (s.orders.filter (fun o => decide (o.typ = .mm ∧ Unfinished o ∧ o.orderer = a ∧ o.pairId = p))).length := by
      unfold liveMM
      rw [List.countP_eq_length_filter]
      congr 1
      refine List.filter_congr (fun o _ => ?_)
      have hu : Unfinished o ↔ o.status.shouldBeDeleted = false := by
        unfold Unfinished
        cases o.status <;> simp [OStatus.shouldBeDeleted, OStatus.isCanceledOrExpired]
      rw [Bool.eq_iff_iff]
      simp [hu, OrderRec.done, and_assoc]
    split at f1
    · cases f1
    · have := Option.some.inj f1
      rcases f2 with f2 | f2 <;> omega
  refine ⟨b1, b2, b4, b5, fun hc hs => ?_⟩
  have b3 : offerEscrowBroken s = false := by
    rw [Bool.eq_false_iff, Ne, e3]
    rintro ⟨p, hp, d, hd⟩
    have := (C36_escrow_covers_partial hc p hp).2.2 (hs p hp) d
    omega
  unfold anyBroken
  rw [b1, b2, b3, b4, b5]
  rfl

/-- **C62 is false** for the check of the remaining offer coins: it fails in the state of `C36_not_covered`. -/
theorem C62_offer_check_fails : ∃ s, SaneChain Demo.env s ∧ SaneState Demo.env s ∧ offerEscrowBroken s = true :=
  Demo.saneReach (dustHistory ++ [.limitOrder ⟨3, 1, .sell, ⟨.native 0, 10000⟩, .native 1, 10500000000000000, 10000, 100⟩, .endBlock])
    (fun s => offerEscrowBroken s = true) (by decide +kernel)

/-- Non-vacuity: a state with pending requests, live orders and a counter in which all checks pass. -/
example : ∃ s, SaneChain Demo.env s ∧ SaneState Demo.env s ∧ ((∃ r ∈ s.deposits, r.status = .notExecuted) ∧
    (∃ r ∈ s.withdraws, r.status = .notExecuted) ∧ s.numMM 3 1 = some 1 ∧ anyBroken s [⟨3, 1, 1⟩] = false) :=
  Demo.saneReach
    [.createPair ⟨1, .native 0, .native 1⟩, .createPool ⟨1, 1, [⟨.native 0, 1000000⟩, ⟨.native 1, 1000000⟩]⟩,
     .deposit ⟨2, 1, [⟨.native 0, 50000⟩, ⟨.native 1, 50000⟩]⟩, .withdraw ⟨1, 1, ⟨.pool 1, 1000000⟩⟩,
     .mmOrder ⟨3, 1, .sell, ⟨.native 0, 20000⟩, .native 1, 2000000000000000000, 20000, 100⟩]
    _ (by decide +kernel)

end Verif.Props

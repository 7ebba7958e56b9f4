import Verif.Proofs.NoLoss
/-! # What each operation outside the block boundaries does -/
namespace Verif.Dex
open Verif Verif.Amm Verif.Spec

variable {s s' : State}

/-- The effects of messages, transfers and parameter changes. -/
inductive Effect (env : Env) (s s' : State) : Op → Prop
  | same (op : Op) (h : s' = s) : Effect env s s' op
  | pair (m : MsgCreatePair) (b : Bank) (hb : s.bank.send (.user m.creator) s.params.feeCollector s.params.pairCreationFee = some b)
      (h : s' = { s with bank := b, lastPairId := s.lastPairId + 1 }.setPair (newPair (s.lastPairId + 1) m.base m.quote)) :
      Effect env s s' (.createPair m)
  | pool (m : MsgCreatePool) (pair : Nat) (coins : Coins) (minted : Int) (h : PoolCreated pair m.creator none coins minted s s') :
      Effect env s s' (.createPool m)
  | ranged (m : MsgCreateRangedPool) (pair : Nat) (coins : Coins) (minted : Int)
      (h : PoolCreated pair m.creator (some (m.minPrice, m.maxPrice)) coins minted s s') : Effect env s s' (.createRangedPool m)
  | deposit (m : MsgDeposit) (p : PoolRec) (r : DepReq) (h : DepositAccepted m p r s s') : Effect env s s' (.deposit m)
  | withdraw (m : MsgWithdraw) (p : PoolRec) (r : WdReq) (h : WithdrawAccepted m p r s s') : Effect env s s' (.withdraw m)
  | order (op : Op) (hop : (∃ m, op = .limitOrder m) ∨ (∃ m, op = .marketOrder m) ∨ (∃ m, op = .mmOrder m)) (p : Pair) (o : OrderRec)
      (h : OrderPlaced p o s s') (hpos : minCoinAmount ≤ o.amount ∧ 0 < o.price ∧ s.time ≤ o.expireAt) : Effect env s s' op
  | cancel (op : Op) (hop : (∃ m, op = .cancelOrder m) ∨ (∃ m, op = .cancelAllOrders m)) (hf : SameFrame s s')
      (hs : s'.bank.supply = s.bank.supply)
      (ho : ∀ x ∈ s'.orders, x ∈ s.orders ∨ ∃ o ∈ s.orders, Unfinished o ∧ x = { o with status := .canceled })
      (hl : ∀ a d, ledger s' a d = ledger s a d) : Effect env s s' op
  | transfer (src : Nat) (dst : Addr) (cs : Coins) (b : Bank) (hb : s.bank.send (.user src) dst cs = some b) (h : s' = { s with bank := b }) :
      Effect env s s' (.transfer src dst cs)
  | params (p : Params) (hv : p.validate = true) (h : s' = { s with params := p }) : Effect env s s' (.setParams p)

theorem tx_effect {env : Env} {op : Op} {valid : Bool} {handler : State → Option State} (h : some (tx valid handler s) = some s')
    (he : ∀ t, handler s = some t → Effect env s t op) : Effect env s s' op := by
  cases h
  rcases tx_cases (valid := valid) (handler := handler) (s := s) with e | ⟨_, e⟩
  · exact .same op e
  · exact he _ e

theorem tx_effect' {env : Env} {op : Op} {valid : Bool} {handler : State → Option State} (h : some (tx valid handler s) = some s')
    (he : ∀ t, valid = true → handler s = some t → Effect env s t op) : Effect env s s' op := by
  cases h
  rcases tx_cases (valid := valid) (handler := handler) (s := s) with e | ⟨hv, e⟩
  · exact .same op e
  · exact he _ hv e

theorem notSmall {a p : Int} (h : isTooSmallOrderAmount a p = false) : minCoinAmount ≤ a ∧ 0 < p := by
  unfold isTooSmallOrderAmount at h
  simp only [Bool.or_eq_false_iff, decide_eq_false_iff_not, not_lt] at h
  refine ⟨h.1, ?_⟩
  have h1 : (0 : Int) < minCoinAmount := by decide
  have h2 : (0 : Int) < p * a := lt_of_lt_of_le (by decide) h.2
  by_contra hc
  have := Int.mul_nonpos_of_nonpos_of_nonneg (show p ≤ 0 by omega) (show 0 ≤ a by omega)
  omega

theorem step_effect (hw : WF s) {env : Env} {op : Op} (h1 : ∀ a b, op ≠ .beginBlock a b) (h2 : op ≠ .endBlock)
    (h : step env op s = some s') : Effect env s s' op := by
  cases op with
  | createPair m =>
    refine tx_effect h (fun t e => ?_)
    unfold createPair at e
    split at e
    · cases e
    · split at e
      · cases e
      · rename_i b hb
        cases e
        exact .pair m b hb rfl
  | createPool m =>
    refine tx_effect h (fun t e => ?_)
    obtain ⟨q, _, _, _, _, ap, _, e5⟩ := createPool_created hw e
    exact .pool m _ _ _ e5
  | createRangedPool m =>
    refine tx_effect h (fun t e => ?_)
    obtain ⟨q, _, _, _, _, _, _, ap, _, _, e5⟩ := createRanged_created hw e
    exact .ranged m _ _ _ e5
  | deposit m =>
    refine tx_effect h (fun t e => ?_)
    obtain ⟨p, r, e⟩ := deposit_accepted hw e
    exact .deposit m p r e
  | withdraw m =>
    refine tx_effect h (fun t e => ?_)
    obtain ⟨p, r, e⟩ := withdraw_accepted hw e
    exact .withdraw m p r e
  | limitOrder m =>
    refine tx_effect' h (fun t hv e => ?_)
    obtain ⟨p, o, e, _, _, _, _, _, _, _, _, e9, _, _, _, e13⟩ := placeOrder_spec hw e
    refine .order _ (Or.inl ⟨m, rfl⟩) p o e ⟨(notSmall e13).1, (notSmall e13).2, ?_⟩
    have : ¬ m.lifespan < 0 := by
      intro hc
      simp [MsgLimitOrder.validateBasic, hc] at hv
    omega
  | marketOrder m =>
    refine tx_effect' h (fun t hv e => ?_)
    obtain ⟨p, o, e, _, _, _, _, _, _, _, _, e9, _, _, _, e13⟩ := placeOrder_spec hw e
    refine .order _ (Or.inr (Or.inl ⟨m, rfl⟩)) p o e ⟨(notSmall e13).1, (notSmall e13).2, ?_⟩
    have : ¬ m.lifespan < 0 := by
      intro hc
      simp [MsgMarketOrder.validateBasic, hc] at hv
    omega
  | mmOrder m =>
    refine tx_effect' h (fun t hv e => ?_)
    unfold mmOrder at e
    simp only at e
    split at e
    · cases e
    · rw [Option.map_eq_some_iff] at e
      obtain ⟨t, ht, rfl⟩ := e
      obtain ⟨p, o, e0, _, _, _, _, _, _, _, _, e9, _, _, _, e13⟩ := placeOrder_spec hw ht
      have hlf : ¬ m.lifespan < 0 := by
        intro hc
        simp [MsgLimitOrder.validateBasicMM, hc] at hv
      exact .order _ (Or.inr (Or.inr ⟨m, rfl⟩)) p o ⟨e0.pair, e0.id, e0.fresh, e0.denoms, e0.offer, e0.bank, e0.orders, e0.newPair,
          ⟨e0.rest.params, e0.rest.lastPairId, e0.rest.lastPoolId, e0.rest.pools, e0.rest.deposits, e0.rest.withdraws,
            e0.rest.height, e0.rest.time, e0.rest.pairs⟩⟩ ⟨(notSmall e13).1, (notSmall e13).2, by omega⟩
  | cancelOrder m =>
    refine tx_effect h (fun t e => ?_)
    have hl := cancel_ledger hw e
    unfold cancelOrder at e
    split at e
    · cases e
    · rename_i o ho
      obtain ⟨ho, hk⟩ := hw.getOrder_iff.1 ho
      split at e
      · cases e
      · split at e
        · cases e
        · split at e
          · cases e
          · split at e
            · cases e
            · by_cases hd : o.done = true
              · exact .same _ (finishOrder_done hd e)
              · have hd : o.done = false := by simpa using hd
                refine .cancel _ (Or.inl ⟨m, rfl⟩) (finishOrder_same hd e) (finishOrder_effect hw hd (hw.ordsOk o ho).1 e).2 ?_ hl
                intro x hx
                rw [(finishOrder_frame hd e).1] at hx
                rcases (hw.mem_setOrder ho (by rfl)).1 hx with rfl | ⟨hx, _⟩
                · exact Or.inr ⟨o, ho, (done_iff o).1 hd, rfl⟩
                · exact Or.inl hx
  | cancelAllOrders m =>
    refine tx_effect h (fun t e => ?_)
    classical
    have hl := cancelAll_ledger hw e
    obtain ⟨c1, c2, c3, c4⟩ := cancelAll_spec hw e
    refine .cancel _ (Or.inr ⟨m, rfl⟩) c4 c3 ?_ hl
    intro x hx
    rw [c1, List.mem_map] at hx
    obtain ⟨o, ho, rfl⟩ := hx
    by_cases hc : CancelTarget m s o
    · rw [if_pos hc]; exact Or.inr ⟨o, ho, hc.2.1, rfl⟩
    · rw [if_neg hc]; exact Or.inl ho
  | transfer src dst cs =>
    refine tx_effect h (fun t e => ?_)
    rw [Option.map_eq_some_iff] at e
    obtain ⟨b, hb, rfl⟩ := e
    exact .transfer src dst cs b hb rfl
  | setParams p =>
    cases h
    rcases tx_cases (valid := p.validate) (handler := fun s => some { s with params := p }) (s := s) with e | ⟨hv, e⟩
    · exact .same _ e
    · exact .params p hv (Option.some.inj e).symm
  | beginBlock a b => exact absurd rfl (h1 a b)
  | endBlock => exact absurd rfl h2

/-- Requests are added only by the messages for it. -/
theorem effect_deposits {env : Env} {op : Op} (h : Effect env s s' op) (hne : ∀ m, op ≠ .deposit m) : s'.deposits = s.deposits := by
  cases h with
  | same _ h => rw [h]
  | pair m b hb h => rw [h]; rfl
  | pool m pr cs mt h => exact h.rest.2.2.2.1
  | ranged m pr cs mt h => exact h.rest.2.2.2.1
  | deposit m p r h => exact absurd rfl (hne m)
  | withdraw m p r h => exact h.rest.2.2.2.2.1
  | order _ hop p o h _ => exact h.rest.deposits
  | cancel _ hop hf hs ho hl => exact hf.deposits
  | transfer src dst cs b hb h => rw [h]
  | params p hv h => rw [h]

theorem effect_withdraws {env : Env} {op : Op} (h : Effect env s s' op) (hne : ∀ m, op ≠ .withdraw m) : s'.withdraws = s.withdraws := by
  cases h with
  | same _ h => rw [h]
  | pair m b hb h => rw [h]; rfl
  | pool m pr cs mt h => exact h.rest.2.2.2.2.1
  | ranged m pr cs mt h => exact h.rest.2.2.2.2.1
  | deposit m p r h => exact h.rest.2.2.2.2.1
  | withdraw m p r h => exact absurd rfl (hne m)
  | order _ hop p o h _ => exact h.rest.withdraws
  | cancel _ hop hf hs ho hl => exact hf.withdraws
  | transfer src dst cs b hb h => rw [h]
  | params p hv h => rw [h]

/-- Supplies change only by the creation of pools (outside of batches). -/
theorem effect_supply {env : Env} {op : Op} (h : Effect env s s' op) (hne : ∀ m, op ≠ .createPool m) (hne' : ∀ m, op ≠ .createRangedPool m) :
    s'.bank.supply = s.bank.supply := by
  cases h with
  | same _ h => rw [h]
  | pair m b hb h => rw [h]; exact (send_some hb).2.2.1
  | pool m pr cs mt h => exact absurd rfl (hne m)
  | ranged m pr cs mt h => exact absurd rfl (hne' m)
  | deposit m p r h => exact h.supply
  | withdraw m p r h => exact h.supply
  | order _ hop p o h _ => exact h.bank.2
  | cancel _ hop hf hs ho hl => exact hs
  | transfer src dst cs b hb h => rw [h]; exact (send_some hb).2.2.1
  | params p hv h => rw [h]

/-- Pairs keep their last price and batch id outside of batches. -/
theorem effect_pairs (hw : WF s) (hw' : WF s') {env : Env} {op : Op} (h : Effect env s s' op) :
    (∀ p ∈ s.pairs, ∃ p' ∈ s'.pairs, p' = { p with lastOrderId := p'.lastOrderId }) ∧
    (∀ p' ∈ s'.pairs, (∃ p ∈ s.pairs, p' = { p with lastOrderId := p'.lastOrderId }) ∨ p'.lastPrice = none) := by
  have hsame : ∀ t : State, t.pairs = s.pairs →
      (∀ p ∈ s.pairs, ∃ p' ∈ t.pairs, p' = { p with lastOrderId := p'.lastOrderId }) ∧
      (∀ p' ∈ t.pairs, (∃ p ∈ s.pairs, p' = { p with lastOrderId := p'.lastOrderId }) ∨ p'.lastPrice = none) := by
    intro t e
    rw [e]
    exact ⟨fun p hp => ⟨p, hp, rfl⟩, fun p hp => Or.inl ⟨p, hp, rfl⟩⟩
  cases h with
  | same _ h => exact hsame _ (by rw [h])
  | pair m b hb h =>
    have hmem : ∀ p, p ∈ s'.pairs ↔ p ∈ s.pairs ∨ p = newPair (s.lastPairId + 1) m.base m.quote := by
      intro p
      rw [h]
      show p ∈ upsert Pair.key _ s.pairs ↔ _
      rw [hw.pairsS.mem_upsert]
      constructor
      · rintro (e | ⟨e, _⟩)
        · exact Or.inr e
        · exact Or.inl e
      · rintro (e | e)
        · refine Or.inr ⟨e, ?_⟩
          intro hk
          have := (hw.pairIds p e).2
          simp only [Pair.key, newPair, Prod.mk.injEq] at hk
          omega
        · exact Or.inl e
    refine ⟨fun p hp => ⟨p, (hmem p).2 (Or.inl hp), rfl⟩, fun p hp => ?_⟩
    rcases (hmem p).1 hp with hp | rfl
    · exact Or.inl ⟨p, hp, rfl⟩
    · exact Or.inr rfl
  | pool m pr cs mt h => exact hsame _ h.rest.2.2.1
  | ranged m pr cs mt h => exact hsame _ h.rest.2.2.1
  | deposit m p r h => exact hsame _ h.rest.2.2.2.1
  | withdraw m p r h => exact hsame _ h.rest.2.2.2.1
  | order _ hop q o h _ =>
    constructor
    · intro p hp
      by_cases e : p.id = q.id
      · have : p = q := hw.key_pair hp h.pair.1 e
        subst this
        exact ⟨_, h.newPair, rfl⟩
      · exact ⟨p, (h.rest.pairs p e).2 hp, rfl⟩
    · intro p hp
      left
      by_cases e : p.id = q.id
      · have : p = { q with lastOrderId := q.lastOrderId + 1 } := hw'.key_pair hp h.newPair e
        subst this
        exact ⟨q, h.pair.1, rfl⟩
      · exact ⟨p, (h.rest.pairs p e).1 hp, rfl⟩
  | cancel _ hop hf hs ho hl => exact hsame _ hf.pairs
  | transfer src dst cs b hb h => exact hsame _ (by rw [h])
  | params p hv h => exact hsame _ (by rw [h])

end Verif.Dex

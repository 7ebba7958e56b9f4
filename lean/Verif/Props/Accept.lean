import Verif.Proofs.Accept
import Verif.Proofs.SaneDemo
import Verif.Props.History
import Verif.Props.Trade
/-! # Which messages are accepted (C35, C43, C50, C57)

Each theorem says that the handler of a message that passed its stateless validation succeeds exactly if the stated conditions on the
state hold. -/
namespace Verif.Props
open Verif Verif.Amm Verif.Dex Verif.Spec

/-- C57: a pair is created exactly if it is new and the creator can pay the fee. -/
theorem C57_create_pair_accepted_iff {env : Env} {s : State} (hs : Reachable env s) (m : MsgCreatePair) :
    (∃ s', createPair m s = some s') ↔ PairAcceptable m s := by
  have hp := hs.validParams
  unfold Params.validate at hp
  simp only [Bool.and_eq_true] at hp
  have hg := ((goodCoins_iff _).1 hp.1.1.1.1.1.1.2).1
  have hnew : s.getPairByDenoms m.base m.quote = none ↔ ∀ p ∈ s.pairs, ¬ (p.base = m.base ∧ p.quote = m.quote) := by
    unfold State.getPairByDenoms
    simp [List.find?_eq_none]
  have hsend := send_iff (b := s.bank) hs.wf.bankNN (src := .user m.creator) (dst := s.params.feeCollector) (cs := s.params.pairCreationFee)
  constructor
  · rintro ⟨s', h⟩
    unfold createPair at h
    split at h
    · cases h
    · rename_i h1
      split at h
      · cases h
      · rename_i b hb
        exact ⟨hnew.1 h1, (hsend.1 ⟨b, hb⟩).2⟩
  · rintro ⟨h1, h2⟩
    obtain ⟨b, hb⟩ := hsend.2 ⟨fun c hc => (hg c hc).le, h2⟩
    unfold createPair
    rw [hnew.2 h1]
    simp only [hb]
    exact ⟨_, rfl⟩

/-- C57: a basic pool is created exactly under the conditions of `BasicPoolAcceptable`. -/
theorem C57_create_pool_accepted_iff {env : Env} {s : State} (hs : Reachable env s) {m : MsgCreatePool} (hv : m.validateBasic = true) :
    (∃ s', createPool m s = some s') ↔ ∃ p, BasicPoolAcceptable m s p := by
  have hp := hs.validParams
  unfold Params.validate at hp
  simp only [Bool.and_eq_true, decide_eq_true_eq] at hp
  have hfee := ((goodCoins_iff _).1 hp.1.1.1.1.1.2).1
  have hmin := hp.1.1.1.1.1.1.1.2
  obtain ⟨_, hg, _, _⟩ := (C50_create_pool m).1 hv
  have hcoins : ∀ c ∈ m.coins, 0 ≤ c.amt := fun c hc => (hg.1 c hc).le
  have hbank : ∀ p : Pair, ∀ ap, (∃ b, createPoolBank ({ s with lastPoolId := s.lastPoolId + 1 }.setPool
      (newPool (s.lastPoolId + 1) p.id m.creator none)) m.creator (s.lastPoolId + 1) m.coins (max ap s.params.minInitialPoolCoinSupply) = some b) ↔
      CanPay s.bank (.user m.creator) (fun d => amountOf m.coins d + amountOf s.params.poolCreationFee d) := by
    intro p ap
    refine Iff.trans (createPoolBank_iff (by exact hs.wf.bankNN) (le_trans hmin.le (le_max_right _ _)) (fun c hc => (hfee c hc).le)) ?_
    exact ⟨fun h => h.2, fun h => ⟨hcoins, h⟩⟩
  constructor
  · rintro ⟨s', h⟩
    unfold createPool at h
    split at h
    · cases h
    · rename_i pair hv'
      obtain ⟨v1, v2, v3, v4⟩ := (validateCreatePool_iff hs.wf).1 hv'
      split at h
      · cases h
      · rename_i ap hap
        simp only at h
        split at h
        · cases h
        · rename_i b hb
          have hne : ¬ (amountOf m.coins pair.quote = 0 ∨ amountOf m.coins pair.base = 0) := by
            intro hc
            unfold createBasicPool at hap
            rw [if_pos hc] at hap
            cases hap
          have h1 := amountOf_nonneg hcoins pair.quote
          have h2 := amountOf_nonneg hcoins pair.base
          exact ⟨pair, v1, v2, v3, v4, (createBasicPool_iff (by omega) (by omega)).1 ⟨ap, hap⟩, (hbank pair ap.ps).1 ⟨b, hb⟩⟩
  · rintro ⟨p, h⟩
    have hpos : 0 < amountOf m.coins p.quote ∧ 0 < amountOf m.coins p.base := by
      have h1 := amountOf_nonneg hcoins p.quote
      have h2 := amountOf_nonneg hcoins p.base
      have h3 := h.price.1
      refine ⟨?_, ?_⟩
      · by_contra hc
        rw [show amountOf m.coins p.quote = 0 by omega] at h3
        revert h3; simp [Dec.quo, Dec.ofInt, Dec.chopRound]; decide
      · by_contra hc
        rw [show amountOf m.coins p.base = 0 by omega] at h3
        revert h3; simp [Dec.quo, Dec.ofInt, Dec.chopRound]; decide
    obtain ⟨ap, hap⟩ := (createBasicPool_iff hpos.1 hpos.2).2 h.price
    obtain ⟨b, hb⟩ := (hbank p ap.ps).2 h.funds
    unfold createPool
    rw [(validateCreatePool_iff hs.wf).2 ⟨h.pair, h.coins, h.onlyBasic, h.cap⟩]
    simp only [hap, hb]
    exact ⟨_, rfl⟩

/-- C57: a ranged pool is created exactly under the conditions of `RangedPoolAcceptable`. -/
theorem C57_create_ranged_accepted_iff {env : Env} {s : State} (hs : Reachable env s) {m : MsgCreateRangedPool} (hv : m.validateBasic = true) :
    (∃ s', createRangedPoolMsg env m s = some s') ↔ ∃ p ap, RangedPoolAcceptable env m s p ap := by
  have hp := hs.validParams
  unfold Params.validate at hp
  simp only [Bool.and_eq_true, decide_eq_true_eq] at hp
  have hfee := ((goodCoins_iff _).1 hp.1.1.1.1.1.2).1
  have hmin := hp.1.1.1.1.1.1.1.2
  obtain ⟨_, hg, _, _, hr⟩ := (C50_create_ranged_pool m).1 hv
  have hpos : 0 < m.minPrice ∧ 0 < m.maxPrice ∧ 0 < m.initialPrice := by
    have := hr.low; have := hr.order; have := hr.start.1; omega
  have hbank : ∀ p ∈ s.pairs, ∀ ap : Pool, (∃ b, createPoolBank ({ s with lastPoolId := s.lastPoolId + 1 }.setPool
      (newPool (s.lastPoolId + 1) p.id m.creator (some (m.minPrice, m.maxPrice)))) m.creator (s.lastPoolId + 1)
      [⟨p.quote, ap.rx⟩, ⟨p.base, ap.ry⟩] (max ap.ps s.params.minInitialPoolCoinSupply) = some b) ↔ (0 ≤ ap.rx ∧ 0 ≤ ap.ry) ∧
      CanPay s.bank (.user m.creator) (fun d => (if d = p.quote then ap.rx else 0) + (if d = p.base then ap.ry else 0) +
        amountOf s.params.poolCreationFee d) := by
    intro p _ ap
    refine Iff.trans (createPoolBank_iff (by exact hs.wf.bankNN) (le_trans hmin.le (le_max_right _ _)) (fun c hc => (hfee c hc).le)) ?_
    have e : ∀ d, amountOf [⟨p.quote, ap.rx⟩, ⟨p.base, ap.ry⟩] d = (if d = p.quote then ap.rx else 0) + (if d = p.base then ap.ry else 0) := by
      intro d
      rw [amountOf_cons, amountOf_single]
      simp only [eq_comm]
    constructor
    · rintro ⟨h1, h2⟩
      refine ⟨⟨h1 _ (List.mem_cons_self ..), h1 ⟨p.base, ap.ry⟩ (by simp)⟩, fun d => ?_⟩
      have := h2 d
      simp only [e] at this
      exact this
    · rintro ⟨h1, h2⟩
      refine ⟨by simp [h1], fun d => ?_⟩
      have := h2 d
      simp only [e]
      exact this
  constructor
  · rintro ⟨s', h⟩
    unfold createRangedPoolMsg at h
    split at h
    · cases h
    · rename_i pair hv'
      obtain ⟨v1, v2, v3, v4, v5⟩ := (validateCreateRanged_iff hs.wf hpos).1 hv'
      split at h
      · cases h
      · cases h
      · rename_i ap hap
        simp only at h
        split at h
        · cases h
        · rename_i hmin'
          split at h
          · cases h
          · rename_i b hb
            obtain ⟨b1, b2⟩ := (hbank pair v1.1 ap).1 ⟨b, hb⟩
            exact ⟨pair, ap, v1, v2, v3, v4, v5, hap, by omega, b1, b2⟩
  · rintro ⟨p, ap, h⟩
    obtain ⟨b, hb⟩ := (hbank p h.pair.1 ap).2 ⟨h.nonneg, h.funds⟩
    unfold createRangedPoolMsg
    rw [(validateCreateRanged_iff hs.wf hpos).2 ⟨h.pair, h.coins, h.ticks, h.lowest, h.cap⟩]
    have := h.amounts
    simp only [h.created]
    rw [if_neg (by omega)]
    simp only [hb]
    exact ⟨_, rfl⟩

theorem digits_decLen (x : Int) (hx : 0 ≤ x) : Digits x (decLen x.natAbs - 1 + 1) := by
  rcases hx.eq_or_lt with h | h
  · subst h
    refine ⟨by omega, by decide, fun h => ?_⟩
    revert h; decide
  · obtain ⟨a, b, c⟩ := decLen_spec x.natAbs (by omega)
    rw [show decLen x.natAbs - 1 + 1 = decLen x.natAbs by omega]
    have hb : ((10 ^ (decLen x.natAbs - 1) : Nat) : Int) ≤ (x.natAbs : Int) := Int.ofNat_le.2 b
    have hc : (x.natAbs : Int) < ((10 ^ decLen x.natAbs : Nat) : Int) := Int.ofNat_lt.2 c
    push_cast at hb hc
    rw [abs_of_pos h] at hb hc
    exact ⟨a, hc, fun _ => hb⟩

theorem initialSupply_spec {x y : Int} (hx : 0 ≤ x) (hy : 0 ≤ y) (atLeast : Int) :
    InitialSupply x y atLeast (max (initialPoolCoinSupply x y) atLeast) :=
  ⟨_, _, digits_decLen x hx, digits_decLen y hy, rfl⟩

/-- C57: creating a basic pool moves exactly the deposited coins to the reserve of the new pool and the fee to the fee
collector, and gives the minted pool coins (their number is fixed by `InitialSupply`) to the creator; the coins are of the pair, at least the minimum, and no basic
pool of the pair was active. -/
theorem C57_create_pool {env : Env} {s s' : State} (hs : Reachable env s) {m : MsgCreatePool} (hv : m.validateBasic = true) (h : createPool m s = some s') :
    ∃ q ∈ s.pairs, q.id = m.pairId ∧ (∀ c ∈ m.coins, (c.denom = q.base ∨ c.denom = q.quote) ∧ s.params.minInitialDepositAmount ≤ c.amt) ∧
      (∀ p ∈ s.pools, p.pairId = m.pairId → p.range = none → p.disabled = true) ∧
      ∃ minted, PoolCreated m.pairId m.creator none m.coins minted s s' ∧
        InitialSupply (amountOf m.coins q.quote) (amountOf m.coins q.base) s.params.minInitialPoolCoinSupply minted := by
  obtain ⟨q, hq⟩ := (C57_create_pool_accepted_iff hs hv).1 ⟨s', h⟩
  obtain ⟨q', hq', e1, _, _, ap, e4, e5⟩ := createPool_created hs.wf h
  have : q' = q := hs.wf.key_pair hq' hq.pair.1 (by rw [e1, hq.pair.2])
  subst this
  rw [e1] at e5
  have hg : ∀ c ∈ m.coins, 0 ≤ c.amt := fun c hc => (((C50_create_pool m).1 hv).2.1.1 c hc).le
  refine ⟨q', hq', e1, hq.coins, by rw [← e1]; exact hq.onlyBasic, _, e5, ?_⟩
  have hps : ap.ps = initialPoolCoinSupply (amountOf m.coins q'.quote) (amountOf m.coins q'.base) := by
    unfold createBasicPool at e4
    split at e4
    · cases e4
    · simp only at e4
      split at e4
      · cases e4
      · split at e4
        · cases e4
        · rw [← Option.some.inj e4]; rfl
  rw [hps]
  exact initialSupply_spec (amountOf_nonneg hg _) (amountOf_nonneg hg _) _

/-- C57: creating a ranged pool moves exactly the accepted amounts (C56) to the reserve of the new pool and the fee to the fee
collector, and gives the minted pool coins (their number is fixed by `InitialSupply`) to the creator. -/
theorem C57_create_ranged_pool {env : Env} {s s' : State} (hs : Reachable env s) {m : MsgCreateRangedPool}
    (hv : m.validateBasic = true) (h : createRangedPoolMsg env m s = some s') :
    ∃ q ∈ s.pairs, q.id = m.pairId ∧ (∀ c ∈ m.coins, c.denom = q.base ∨ c.denom = q.quote) ∧
      ∃ ap minted, createRangedPool env.sqrt (amountOf m.coins q.quote) (amountOf m.coins q.base) m.minPrice m.maxPrice
          m.initialPrice = .ok ap ∧
        (s.params.minInitialDepositAmount ≤ ap.rx ∨ s.params.minInitialDepositAmount ≤ ap.ry) ∧
        PoolCreated m.pairId m.creator (some (m.minPrice, m.maxPrice)) [⟨q.quote, ap.rx⟩, ⟨q.base, ap.ry⟩] minted s s' ∧
        0 ≤ ap.rx ∧ 0 ≤ ap.ry ∧ InitialSupply ap.rx ap.ry s.params.minInitialPoolCoinSupply minted := by
  obtain ⟨q, ap, hq⟩ := (C57_create_ranged_accepted_iff hs hv).1 ⟨s', h⟩
  obtain ⟨q', hq', e1, _, _, _, _, ap', e3, _, e5⟩ := createRanged_created hs.wf h
  have : q' = q := hs.wf.key_pair hq' hq.pair.1 (by rw [e1, hq.pair.2])
  subst this
  have : ap' = ap := by
    have := e3.symm.trans hq.created
    cases this
    rfl
  subst this
  rw [e1] at e5
  refine ⟨q', hq', e1, hq.coins, ap', _, e3, hq.amounts, e5, hq.nonneg.1, hq.nonneg.2, ?_⟩
  have hps : ap'.ps = initialPoolCoinSupply ap'.rx ap'.ry := by
    unfold createRangedPool at e3
    split at e3
    · cases e3
    · split at e3
      · cases e3
      · unfold Res.ofOption at e3
        split at e3
        · rename_i hx
          cases e3
          simp only [Option.bind_eq_bind, Option.bind_eq_some_iff, newRangedPool, pure, Option.some.injEq] at hx
          obtain ⟨y, _, z, _, rfl⟩ := hx
          rfl
        · cases e3
  rw [hps]
  exact initialSupply_spec hq.nonneg.1 hq.nonneg.2 _

/-- A chain on which pools of both kinds can be created. -/
example : ∃ s, Reachable Demo.env s ∧ ((⟨1, 1, [⟨.native 0, 2000000⟩, ⟨.native 1, 2000000⟩]⟩ : MsgCreatePool).validateBasic = true ∧
    (createPool ⟨1, 1, [⟨.native 0, 2000000⟩, ⟨.native 1, 2000000⟩]⟩ s).isSome ∧
    (createRangedPoolMsg Demo.env ⟨1, 1, [⟨.native 0, 2000000⟩, ⟨.native 1, 2000000⟩], 500000000000000000, 2000000000000000000, 1000000000000000000⟩ s).isSome) :=
  Demo.reach [.createPair ⟨1, .native 0, .native 1⟩] _ (by decide +kernel)

/-- C43: a deposit request is accepted exactly under the conditions of `DepositAcceptable`. -/
theorem C43_deposit_accepted_iff {env : Env} {s : State} (hs : Reachable env s) {m : MsgDeposit} (hv : m.validateBasic = true) :
    (∃ s', depositMsg m s = some s') ↔ ∃ q p, DepositAcceptable m s q p := by
  have hw := hs.wf
  obtain ⟨_, hg, _⟩ := (C50_deposit_withdraw m ⟨1, 1, ⟨.native 0, 1⟩⟩).1.1 hv
  have hsend := send_iff (b := s.bank) hw.bankNN (src := .user m.depositor) (dst := .globalEscrow) (cs := m.coins)
  constructor
  · rintro ⟨s', h⟩
    unfold depositMsg at h
    split at h
    · cases h
    · rename_i q hq
      obtain ⟨q1, q2⟩ := hw.getPool_iff.1 hq
      split at h
      · cases h
      · rename_i hd
        split at h
        · cases h
        · rename_i hb
          split at h
          · cases h
          · rename_i p hp
            obtain ⟨p1, p2⟩ := hw.getPair_iff.1 hp
            split at h
            · cases h
            · rename_i hc
              split at h
              · cases h
              · rename_i l1
                split at h
                · cases h
                · rename_i l2
                  split at h
                  · cases h
                  · rename_i b hbk
                    unfold State.poolRx at l1
                    unfold State.poolRy at l2
                    unfold maxCoinAmount at l1 l2
                    refine ⟨q, p, ⟨q1, q2, by simpa using hd⟩, ⟨p1, p2⟩, ?_, coinsInPair_iff.1 (by simpa using hc), ?_, (hsend.1 ⟨b, hbk⟩).2⟩
                    · intro hn
                      by_contra hl
                      exact hb ⟨by simp [hn], hl⟩
                    · rintro d (rfl | rfl)
                      · omega
                      · omega
  · rintro ⟨q, p, h⟩
    obtain ⟨b, hb⟩ := hsend.2 ⟨fun c hc => (hg.1 c hc).le, h.funds⟩
    unfold depositMsg
    rw [hw.getPool_iff.2 ⟨h.pool.1, h.pool.2.1⟩]
    simp only
    rw [if_neg (by simp [h.pool.2.2]), if_neg (by
      rintro ⟨h1, h2⟩
      exact h2 (h.both (by simpa using h1)))]
    rw [hw.getPair_iff.2 ⟨h.pair.1, h.pair.2⟩]
    simp only
    have l1 := h.limits p.quote (.inr rfl)
    have l2 := h.limits p.base (.inl rfl)
    rw [coinsInPair_iff.2 h.coins, if_neg (by decide), if_neg (by unfold State.poolRx maxCoinAmount; omega),
      if_neg (by unfold State.poolRy maxCoinAmount; omega), hb]
    exact ⟨_, rfl⟩

/-- C43: a withdraw request is accepted exactly under the conditions of `WithdrawAcceptable`. -/
theorem C43_withdraw_accepted_iff {env : Env} {s : State} (hs : Reachable env s) {m : MsgWithdraw} (hv : m.validateBasic = true) :
    (∃ s', withdrawMsg m s = some s') ↔ ∃ q, WithdrawAcceptable m s q := by
  have hw := hs.wf
  have hg := ((C50_deposit_withdraw ⟨1, 1, []⟩ m).2.1 hv).2
  have hsend := send_iff (b := s.bank) hw.bankNN (src := .user m.withdrawer) (dst := .globalEscrow) (cs := [m.coin])
  have hpay : CanPay s.bank (.user m.withdrawer) (amountOf [m.coin]) ↔ m.coin.amt ≤ s.bank.bal (.user m.withdrawer) m.coin.denom := by
    constructor
    · intro h
      have := h m.coin.denom
      simpa [amountOf] using this
    · intro h d
      rw [show [m.coin] = [⟨m.coin.denom, m.coin.amt⟩] from rfl, amountOf_single]
      split
      · rename_i e; rw [← e]; exact h
      · exact hw.bankNN _ _
  rw [hpay] at hsend
  constructor
  · rintro ⟨s', h⟩
    unfold withdrawMsg at h
    split at h
    · cases h
    · rename_i q hq
      obtain ⟨q1, q2⟩ := hw.getPool_iff.1 hq
      split at h
      · cases h
      · rename_i hd
        split at h
        · cases h
        · rename_i hb
          split at h
          · cases h
          · rename_i b hbk
            exact ⟨q, ⟨q1, q2, by simpa using hd⟩, by simpa using hb, (hsend.1 ⟨b, hbk⟩).2⟩
  · rintro ⟨q, h⟩
    obtain ⟨b, hb⟩ := hsend.2 ⟨by simp; omega, h.funds⟩
    unfold withdrawMsg
    rw [hw.getPool_iff.2 ⟨h.pool.1, h.pool.2.1⟩]
    simp only
    rw [if_neg (by simp [h.pool.2.2]), if_neg (by simp [h.denom]), hb]
    exact ⟨_, rfl⟩

/-- C35: on a sane chain a market order is accepted exactly under the conditions of `MarketAcceptable`, and the order stored has the
price named there. -/
theorem C35_market_accepted_iff {env : Env} {s : State} (hc : SaneChain env s) (hp : SaneParams s.params) {m : MsgMarketOrder} :
    ((∃ s', marketOrder m s = some s') ↔ ∃ p tick needed, MarketAcceptable m s p tick needed) ∧
    ∀ s' p tick needed, marketOrder m s = some s' → MarketAcceptable m s p tick needed →
      ∃ o ∈ s'.orders, o ∉ s.orders ∧ o.price = tick ∧ o.offer = needed ∧ o.typ = .market := by
  have hw := (sane_of_chain hc).reach.wf
  have hprice : ∀ p ∈ s.pairs, ∀ t, orderPrice s.params p .market m.dir 0 = some t ↔
      ∃ last x, p.lastPrice = some last ∧ 0 < x ∧ TickFor m.dir s.params.tickPrec x t ∧
        x = Dec.mul last (if m.dir = .buy then 10 ^ 18 + s.params.maxPriceLimitRatio else 10 ^ 18 - s.params.maxPriceLimitRatio) := by
    intro p hpm t
    have hone : Dec.one = 10 ^ 18 := by decide
    cases hl : p.lastPrice with
    | none => unfold orderPrice; cases m.dir <;> simp [hl]
    | some last =>
      have hlast := C59_last_price_positive hc p hpm last hl
      have hr := hp.ratio
      have hx : 0 ≤ Dec.mul last (if m.dir = .buy then 10 ^ 18 + s.params.maxPriceLimitRatio else 10 ^ 18 - s.params.maxPriceLimitRatio) := by
        apply mul_nonneg_dec hlast.le
        rw [hone] at hr
        split <;> omega
      have e : orderPrice s.params p .market m.dir 0 = (match m.dir with
          | .buy => priceToDownTick? (Dec.mul last (if m.dir = .buy then 10 ^ 18 + s.params.maxPriceLimitRatio else 10 ^ 18 - s.params.maxPriceLimitRatio)) s.params.tickPrec
          | .sell => priceToUpTick? (Dec.mul last (if m.dir = .buy then 10 ^ 18 + s.params.maxPriceLimitRatio else 10 ^ 18 - s.params.maxPriceLimitRatio)) s.params.tickPrec) := by
        unfold orderPrice
        cases m.dir <;> simp [hl, hone]
      rw [e]
      generalize hxe : Dec.mul last (if m.dir = .buy then 10 ^ 18 + s.params.maxPriceLimitRatio else 10 ^ 18 - s.params.maxPriceLimitRatio) = x at hx e
      have hr2 : (∃ l y, some last = some l ∧ 0 < y ∧ TickFor m.dir s.params.tickPrec y t ∧
          y = Dec.mul l (if m.dir = .buy then 10 ^ 18 + s.params.maxPriceLimitRatio else 10 ^ 18 - s.params.maxPriceLimitRatio)) ↔
          0 < x ∧ TickFor m.dir s.params.tickPrec x t := by
        constructor
        · rintro ⟨l, y, h1, h2, h3, h4⟩
          have h1 := Option.some.inj h1
          subst h1
          rw [hxe] at h4
          subst h4
          exact ⟨h2, h3⟩
        · rintro ⟨h2, h3⟩
          exact ⟨last, x, rfl, h2, h3, hxe.symm⟩
      rw [hr2]
      by_cases h0 : x = 0
      · subst h0
        constructor
        · intro h
          cases hd : m.dir <;> rw [hd] at h <;> simp [priceToDownTick?, priceToUpTick?] at h
        · rintro ⟨h1, _⟩
          omega
      · refine Iff.trans (tick_for (by omega)) ?_
        exact ⟨fun h => ⟨by omega, h⟩, fun h => h.2⟩
  have hsz : ∀ {t : Int}, 100 ≤ m.amt ∧ 100 * 10 ^ 18 ≤ t * m.amt → 0 ≤ t * m.amt := by
    intro t h
    have := h.2
    norm_num at this
    omega
  refine ⟨⟨?_, ?_⟩, ?_⟩
  · intro h
    obtain ⟨p, t, g1, g2, g3, g4, g5, g6, g7, g8, g9⟩ := (placeOrder_iff hw).1 h
    obtain ⟨p1, p2⟩ := hw.getPair_iff.1 g1
    have hsz' := size_iff.1 g9
    exact ⟨p, t, _, ⟨p1, p2⟩, g2, g3, denoms_iff.1 ⟨g5, g6⟩, (hprice p p1 t).1 g7, ⟨needed_offer (hsz hsz'), g8⟩, hsz'⟩
  · rintro ⟨p, t, n, h⟩
    have hn : n = offerCoinAmount m.dir t m.amt := neededOffer_unique h.covered.1 (needed_offer (hsz h.size))
    refine (placeOrder_iff hw).2 ⟨p, t, hw.getPair_iff.2 h.pair, h.funds, h.lifespan, ?_, (denoms_iff.2 h.denoms).1, (denoms_iff.2 h.denoms).2,
      (hprice p h.pair.1 t).2 h.onTick, hn ▸ h.covered.2, size_iff.2 h.size⟩
    obtain ⟨last, x, hl, _⟩ := h.onTick
    unfold priceAllowed
    simp [hl]
  · intro s' p t n e h
    obtain ⟨q, o, e0, e1, e2, e3, e4, e5, e6, e7, e8, e9, e10, e11, _⟩ := placeOrder_spec hw e
    have hq : q = p := hw.key_pair e0.pair.1 h.pair.1 (by rw [e1, h.pair.2])
    subst hq
    have ht : o.price = t := Option.some.inj (e11.symm.trans ((hprice q h.pair.1 t).2 h.onTick))
    refine ⟨o, (e0.orders o).2 (.inr rfl), ?_, ht, ?_, e2⟩
    · intro hm
      have := e0.id.2 o hm e0.pair.2
      omega
    · have := e0.offer.1
      rw [e4, e5, ht] at this
      exact neededOffer_unique this h.covered.1

/-- C35: a market-making order is accepted exactly like a limit order, but only while the account has fewer unfinished market-making
orders on the pair than the parameters allow. -/
theorem C35_mm_accepted_iff {env : Env} {s : State} (hs : Reachable env s) {m : MsgLimitOrder} (hv : m.validateBasicMM = true) :
    (∃ s', mmOrder m s = some s') ↔
      (∃ p tick needed, LimitAcceptable m s p tick needed) ∧ unfinishedMM s m.orderer m.pairId < s.params.maxNumMMOrders := by
  have hv' : m.validateBasic = true := (C50_limit_order m).1.2 ((C50_limit_order m).2.1 hv)
  rw [← C35_limit_accepted_iff hs hv', ← (C40_mm_counter hs m.orderer m.pairId).1]
  have hsame : (∃ s', placeOrder .mm m.orderer m.pairId m.dir m.offer m.demand m.price m.amt m.lifespan s = some s') ↔
      (∃ s', limitOrder m s = some s') := by
    unfold limitOrder
    rw [placeOrder_iff hs.wf, placeOrder_iff hs.wf]
    have h1 : ∀ p, priceAllowed s.params p .mm m.price = priceAllowed s.params p .limit m.price := fun _ => rfl
    have h2 : ∀ p, orderPrice s.params p .mm m.dir m.price = orderPrice s.params p .limit m.dir m.price := by
      intro p; cases m.dir <;> rfl
    simp only [h1, h2]
  rw [← hsame]
  unfold mmOrder
  simp only
  constructor
  · rintro ⟨s', h⟩
    split at h
    · cases h
    · rename_i hlt
      rw [Option.map_eq_some_iff] at h
      obtain ⟨t, ht, _⟩ := h
      exact ⟨⟨t, ht⟩, by omega⟩
  · rintro ⟨⟨t, ht⟩, hlt⟩
    rw [if_neg (by omega), ht]
    exact ⟨_, rfl⟩

/-- C50: a message that fails its stateless validation changes nothing, nor does a change to invalid parameters. -/
theorem C50_invalid_no_effect {env : Env} {s s' : State} {op : Op} (h : step env op s = some s') :
    (∀ m, op = .createPair m → m.base = m.quote → s' = s) ∧
    (∀ m, op = .createPool m → m.validateBasic = false → s' = s) ∧
    (∀ m, op = .createRangedPool m → m.validateBasic = false → s' = s) ∧
    (∀ m, op = .deposit m → m.validateBasic = false → s' = s) ∧
    (∀ m, op = .withdraw m → m.validateBasic = false → s' = s) ∧
    (∀ m, op = .limitOrder m → m.validateBasic = false → s' = s) ∧
    (∀ m, op = .marketOrder m → m.validateBasic = false → s' = s) ∧
    (∀ m, op = .mmOrder m → m.validateBasicMM = false → s' = s) ∧
    (∀ m, op = .cancelOrder m → m.validateBasic = false → s' = s) ∧
    (∀ m, op = .cancelAllOrders m → m.validateBasic = false → s' = s) ∧
    (∀ p, op = .setParams p → p.validate = false → s' = s) := by
  have key : ∀ {v : Bool} {f : State → Option State}, v = false → some (tx v f s) = some s' → s' = s := by
    intro v f hv h
    subst hv
    exact (Option.some.inj h).symm
  refine ⟨?_, ?_, ?_, ?_, ?_, ?_, ?_, ?_, ?_, ?_, ?_⟩
  · rintro m rfl hm
    refine key ?_ h
    by_contra hc
    exact (C50_create_pair m).1 (by simpa using hc) hm
  all_goals
    rintro m rfl hm
    exact key hm h

theorem effect_iff {v : Bool} {f : State → Option State} {s : State} {P : Prop} (hne : ∀ s', f s = some s' → s' ≠ s)
    (hacc : v = true → ((∃ s', f s = some s') ↔ P)) : (∃ s', some (tx v f s) = some s' ∧ s' ≠ s) ↔ v = true ∧ P := by
  cases v with
  | false => simp [tx]
  | true =>
    simp only [tx, if_true, Option.some.injEq, true_and]
    rw [← hacc rfl]
    constructor
    · rintro ⟨s', h1, h2⟩
      cases hf : f s with
      | none => rw [hf] at h1; exact absurd h1.symm h2
      | some t => exact ⟨t, rfl⟩
    · rintro ⟨t, ht⟩
      exact ⟨t, by rw [ht]; rfl, hne t ht⟩

theorem placeOrder_ne {s s' : State} (hw : WF s) {typ : OType} {orderer pairId : Nat} {dir : Dir} {offer : Coin} {demand : Denom}
    {price amount lifespan : Int} (h : placeOrder typ orderer pairId dir offer demand price amount lifespan s = some s') : s'.orders ≠ s.orders := by
  obtain ⟨p, o, e0, _⟩ := placeOrder_spec hw h
  intro e
  have := (e0.orders o).2 (.inr rfl)
  rw [e] at this
  have := e0.id.2 o this e0.pair.2
  omega

/-- C50: a message has an effect exactly if it passes the stateless validation (C50) and the conditions on the state hold that the
property of the message names (C35, C43, C57). -/
theorem C50_effect_iff {env : Env} {s : State} (hs : Reachable env s) :
    (∀ m, (∃ s', step env (.createPair m) s = some s' ∧ s' ≠ s) ↔ m.validateBasic = true ∧ PairAcceptable m s) ∧
    (∀ m, (∃ s', step env (.createPool m) s = some s' ∧ s' ≠ s) ↔ m.validateBasic = true ∧ ∃ p, BasicPoolAcceptable m s p) ∧
    (∀ m, (∃ s', step env (.createRangedPool m) s = some s' ∧ s' ≠ s) ↔ m.validateBasic = true ∧ ∃ p ap, RangedPoolAcceptable env m s p ap) ∧
    (∀ m, (∃ s', step env (.deposit m) s = some s' ∧ s' ≠ s) ↔ m.validateBasic = true ∧ ∃ q p, DepositAcceptable m s q p) ∧
    (∀ m, (∃ s', step env (.withdraw m) s = some s' ∧ s' ≠ s) ↔ m.validateBasic = true ∧ ∃ q, WithdrawAcceptable m s q) ∧
    (∀ m, (∃ s', step env (.limitOrder m) s = some s' ∧ s' ≠ s) ↔ m.validateBasic = true ∧ ∃ p tick needed, LimitAcceptable m s p tick needed) ∧
    (∀ m, (∃ s', step env (.mmOrder m) s = some s' ∧ s' ≠ s) ↔ m.validateBasicMM = true ∧
      (∃ p tick needed, LimitAcceptable m s p tick needed) ∧ unfinishedMM s m.orderer m.pairId < s.params.maxNumMMOrders) ∧
    (SaneChain env s → SaneParams s.params → ∀ m, (∃ s', step env (.marketOrder m) s = some s' ∧ s' ≠ s) ↔ m.validateBasic = true ∧
      ∃ p tick needed, MarketAcceptable m s p tick needed) := by
  have hw := hs.wf
  refine ⟨fun m => effect_iff ?_ (fun _ => C57_create_pair_accepted_iff hs m), fun m => effect_iff ?_ (fun h => C57_create_pool_accepted_iff hs h),
    fun m => effect_iff ?_ (fun h => C57_create_ranged_accepted_iff hs h), fun m => effect_iff ?_ (fun h => C43_deposit_accepted_iff hs h),
    fun m => effect_iff ?_ (fun h => C43_withdraw_accepted_iff hs h), fun m => effect_iff ?_ (fun h => C35_limit_accepted_iff hs h),
    fun m => effect_iff ?_ (fun h => C35_mm_accepted_iff hs h), fun h1 h2 m => effect_iff ?_ (fun h => (C35_market_accepted_iff h1 h2).1)⟩
  · intro s' h e
    subst e
    unfold createPair at h
    split at h
    · cases h
    · split at h
      · cases h
      · simp only at h
        have h := congrArg State.lastPairId (Option.some.inj h)
        have h : s'.lastPairId + 1 = s'.lastPairId := h
        omega
  · rintro s' h rfl
    obtain ⟨_, _, _, _, _, _, _, h⟩ := createPool_created hw h
    have := h.id
    omega
  · rintro s' h rfl
    obtain ⟨_, _, _, _, _, _, _, _, _, _, h⟩ := createRanged_created hw h
    have := h.id
    omega
  · rintro s' h rfl
    obtain ⟨p, r, h⟩ := deposit_accepted hw h
    have h1 := h.new r ((h.deposits r).2 (.inr rfl)) (by rw [h.request]; exact h.pool.2.1.symm)
    omega
  · rintro s' h rfl
    obtain ⟨p, r, h⟩ := withdraw_accepted hw h
    have h1 := h.new r ((h.withdraws r).2 (.inr rfl)) (by rw [h.request]; exact h.pool.2.1.symm)
    omega
  · rintro s' h rfl
    exact placeOrder_ne hw h rfl
  · intro s' h e
    subst e
    unfold mmOrder at h
    simp only at h
    split at h
    · cases h
    · rw [Option.map_eq_some_iff] at h
      obtain ⟨t, ht, e⟩ := h
      refine placeOrder_ne hw ht ?_
      have := congrArg State.orders e
      exact this
  · rintro s' h rfl
    exact placeOrder_ne hw h rfl

/-- A chain on which messages of every kind have an effect, and one of each kind has none. -/
example : ∃ s, SaneChain Demo.env s ∧ SaneState Demo.env s ∧
    ((createPair ⟨1, .native 0, .native 2⟩ s).isSome ∧ (createPair ⟨1, .native 0, .native 1⟩ s).isSome = false ∧
    (depositMsg ⟨2, 1, [⟨.native 0, 2000⟩, ⟨.native 1, 2000⟩]⟩ s).isSome ∧ (depositMsg ⟨2, 2, [⟨.native 0, 2000⟩, ⟨.native 1, 2000⟩]⟩ s).isSome = false ∧
    (withdrawMsg ⟨1, 1, ⟨.pool 1, 2000⟩⟩ s).isSome ∧ (withdrawMsg ⟨2, 1, ⟨.pool 1, 2000⟩⟩ s).isSome = false ∧
    (createRangedPoolMsg Demo.env ⟨1, 1, [⟨.native 0, 2000000⟩, ⟨.native 1, 2000000⟩], 500000000000000000, 2000000000000000000, 1000000000000000000⟩ s).isSome ∧
    (createPool ⟨1, 1, [⟨.native 0, 2000000⟩, ⟨.native 1, 2000000⟩]⟩ s).isSome = false) :=
  Demo.saneReach [.createPair ⟨1, .native 0, .native 1⟩, .createPool ⟨1, 1, [⟨.native 0, 2000000⟩, ⟨.native 1, 2000000⟩]⟩] _ (by decide +kernel)

/-- A chain with a last price on which limit, market-making and market orders are accepted. -/
example : ∃ s, SaneChain Demo.env s ∧ SaneState Demo.env s ∧
    ((limitOrder ⟨2, 1, .buy, ⟨.native 1, 30000⟩, .native 0, 980000000000000000, 30000, 100⟩ s).isSome ∧
    (mmOrder ⟨2, 1, .buy, ⟨.native 1, 30000⟩, .native 0, 980000000000000000, 30000, 100⟩ s).isSome ∧
    (marketOrder ⟨2, 1, .buy, ⟨.native 1, 40000⟩, .native 0, 30000, 100⟩ s).isSome ∧
    (marketOrder ⟨2, 1, .buy, ⟨.native 1, 30000⟩, .native 0, 30000, 100⟩ s).isSome = false ∧
    (marketOrder ⟨2, 1, .sell, ⟨.native 0, 30000⟩, .native 1, 30000, 100⟩ s).isSome) :=
  Demo.saneReach Demo.traded _ (by decide +kernel)

end Verif.Props

import Verif.Spec.Accept
import Verif.Props.Price
import Verif.Props.Msgs
/-! # When messages are accepted -/
namespace Verif.Dex
open Verif Verif.Amm Verif.Spec Verif.Props

variable {s s' : State}

theorem send_iff {b : Bank} (hb : NonNegative b) {src dst : Addr} {cs : Coins} :
    (∃ b', b.send src dst cs = some b') ↔ (∀ c ∈ cs, 0 ≤ c.amt) ∧ CanPay b src (amountOf cs) := by
  constructor
  · rintro ⟨b', h⟩
    obtain ⟨h1, h2, _⟩ := send_some h
    refine ⟨h1, fun d => ?_⟩
    by_cases hd : ∃ c ∈ cs, c.denom = d
    · obtain ⟨c, hc, rfl⟩ := hd
      exact h2 c hc
    · rw [amountOf_of_not_mem (fun c hc e => hd ⟨c, hc, e⟩)]
      exact hb _ _
  · rintro ⟨h1, h2⟩
    exact send_isSome h1 (fun c _ => h2 _)

theorem createPoolBank_iff (hb : NonNegative s.bank) {creator id : Nat} {coins : Coins} {supply : Int} (hsu : 0 ≤ supply)
    (hf : ∀ c ∈ s.params.poolCreationFee, 0 ≤ c.amt) :
    (∃ b, createPoolBank s creator id coins supply = some b) ↔ (∀ c ∈ coins, 0 ≤ c.amt) ∧
      CanPay s.bank (.user creator) (fun d => amountOf coins d + amountOf s.params.poolCreationFee d) := by
  have hpay : ∀ b1, s.bank.send (.user creator) (.poolReserve id) coins = some b1 → ∀ d,
      b1.bal (.user creator) d = s.bank.bal (.user creator) d - amountOf coins d := by
    intro b1 h d
    rw [(send_some h).2.2.2]
    simp [transferEffect]
    ring
  unfold createPoolBank
  constructor
  · rintro ⟨b, h⟩
    simp only [Option.bind_eq_some_iff] at h
    obtain ⟨b1, h1, b2, h2, _⟩ := h
    refine ⟨(send_some h1).1, fun d => ?_⟩
    have := ((send_iff (send_nonneg hb h1)).1 ⟨b2, h2⟩).2 d
    rw [hpay b1 h1] at this
    show _ + _ ≤ _
    omega
  · rintro ⟨h1, h2⟩
    have fee0 : ∀ d, 0 ≤ amountOf s.params.poolCreationFee d := fun d => amountOf_nonneg hf d
    obtain ⟨b1, e1⟩ := (send_iff hb (src := .user creator) (dst := .poolReserve id)).2 ⟨h1, fun d => by have h3 : _ + _ ≤ _ := h2 d; have := fee0 d; omega⟩
    have n1 := send_nonneg hb e1
    obtain ⟨b2, e2⟩ := (send_iff n1 (src := .user creator) (dst := s.params.feeCollector)).2 ⟨hf, fun d => by
      rw [hpay b1 e1]; have h3 : _ + _ ≤ _ := h2 d; omega⟩
    have n2 := send_nonneg n1 e2
    rw [e1]
    simp only [Option.bind_some]
    rw [e2]
    simp only [Option.bind_some]
    unfold Bank.mint
    rw [if_pos hsu]
    simp only [Option.bind_some]
    refine send_isSome (by simpa using hsu) ?_
    intro c hc
    simp only [List.mem_singleton] at hc
    subst hc
    have := n2 .dexModule (.pool id)
    simp [amountOf]
    omega

theorem coinsInPair_iff {p : Pair} {cs : Coins} : coinsInPair p cs = true ↔ ∀ c ∈ cs, c.denom = p.base ∨ c.denom = p.quote := by
  simp [coinsInPair]

theorem numActive_eq (s : State) (id : Nat) : s.numActivePools id = activePools s id := by
  unfold State.numActivePools State.poolsOf activePools
  rw [List.filter_filter]
  congr 2
  funext p
  rw [Bool.eq_iff_iff]
  simp [and_comm]

theorem validateCreatePool_iff (hw : WF s) {m : MsgCreatePool} {p : Pair} : validateCreatePool m s = some p ↔
    (p ∈ s.pairs ∧ p.id = m.pairId) ∧ (∀ c ∈ m.coins, (c.denom = p.base ∨ c.denom = p.quote) ∧ s.params.minInitialDepositAmount ≤ c.amt) ∧
    (∀ q ∈ s.pools, q.pairId = p.id → q.range = none → q.disabled = true) ∧ activePools s p.id < s.params.maxNumActivePools := by
  constructor
  · intro h
    obtain ⟨v1, v2, v3, v4, v5⟩ := validateCreatePool_some h
    exact ⟨hw.getPair_iff.1 v1, fun c hc => ⟨coinsInPair_iff.1 v2 c hc, v3 c hc⟩, v4, by rw [← numActive_eq]; exact v5⟩
  · rintro ⟨h1, h2, h3, h4⟩
    unfold validateCreatePool
    rw [hw.getPair_iff.2 h1]
    simp only
    rw [coinsInPair_iff.2 (fun c hc => (h2 c hc).1), if_neg (by decide), if_neg, if_neg, if_neg]
    · rw [numActive_eq]; omega
    · simp only [List.any_eq_true, State.poolsOf, List.mem_filter, Bool.and_eq_true, not_exists, not_and, Bool.not_eq_true', Option.isNone_iff_eq_none]
      rintro q ⟨q1, q2⟩ q3
      rw [h3 q q1 (by simpa using q2) q3]; simp
    · simp only [List.any_eq_true, decide_eq_true_eq, not_exists, not_and, not_lt]
      exact fun c hc => (h2 c hc).2

theorem downTick_self {prec : Nat} {x : Int} (hx : 0 < x) : priceToDownTick? x prec = some x ↔ IsTick prec x := by
  unfold priceToDownTick?
  rw [if_neg (by omega)]
  constructor
  · intro h
    have := Option.some.inj h
    rw [← this]; exact isTick_down hx prec
  · intro h
    rw [down_of_tick h]

theorem validateCreateRanged_iff (hw : WF s) {m : MsgCreateRangedPool} (hm : 0 < m.minPrice ∧ 0 < m.maxPrice ∧ 0 < m.initialPrice) {p : Pair} : validateCreateRangedPool m s = some p ↔
    (p ∈ s.pairs ∧ p.id = m.pairId) ∧ (∀ c ∈ m.coins, c.denom = p.base ∨ c.denom = p.quote) ∧
    (IsTick s.params.tickPrec m.minPrice ∧ IsTick s.params.tickPrec m.maxPrice ∧ IsTick s.params.tickPrec m.initialPrice) ∧
    (s.params.tickPrec ≤ 18 ∧ lowestTick s.params.tickPrec ≤ m.minPrice) ∧ activePools s p.id < s.params.maxNumActivePools := by
  unfold validateCreateRangedPool
  rw [← downTick_self hm.1, ← downTick_self hm.2.1, ← downTick_self hm.2.2, ← hw.getPair_iff, ← coinsInPair_iff, ← numActive_eq]
  by_cases h1 : priceToDownTick? m.minPrice s.params.tickPrec = some m.minPrice
  · by_cases h2 : priceToDownTick? m.maxPrice s.params.tickPrec = some m.maxPrice
    · by_cases h3 : priceToDownTick? m.initialPrice s.params.tickPrec = some m.initialPrice
      · rw [if_neg (by simpa using h1), if_neg (by simpa using h2), if_neg (by simpa using h3)]
        unfold lowestTick?
        by_cases h4 : s.params.tickPrec ≤ 18
        · rw [if_pos h4]
          simp only
          by_cases h5 : m.minPrice < lowestTick s.params.tickPrec
          · rw [if_pos h5]; constructor
            · intro h; cases h
            · rintro ⟨_, _, _, h, _⟩; omega
          · rw [if_neg h5]
            cases hg : s.getPair m.pairId with
            | none => simp
            | some q =>
              simp only
              constructor
              · intro h
                split at h
                · cases h
                · rename_i h6
                  split at h
                  · cases h
                  · rename_i h7
                    have h := Option.some.inj h
                    subst h
                    exact ⟨rfl, by simpa using h6, ⟨h1, h2, h3⟩, ⟨h4, by omega⟩, by omega⟩
              · rintro ⟨g1, g2, _, _, g5⟩
                have g1 := Option.some.inj g1
                subst g1
                rw [g2, if_neg (by decide), if_neg (by omega)]
        · rw [if_neg h4]
          simp only
          constructor
          · intro h; cases h
          · rintro ⟨_, _, _, h, _⟩; omega
      · rw [if_neg (by simpa using h1), if_neg (by simpa using h2), if_pos (by simpa using h3)]
        simp [h3]
    · rw [if_neg (by simpa using h1), if_pos (by simpa using h2)]; simp [h2]
  · rw [if_pos (by simpa using h1)]; simp [h1]

theorem createBasicPool_iff {rx ry : Int} (hx : 0 < rx) (hy : 0 < ry) : (∃ ap, createBasicPool rx ry = some ap) ↔
    1000 ≤ Dec.quo (Dec.ofInt rx) (Dec.ofInt ry) ∧ Dec.quo (Dec.ofInt rx) (Dec.ofInt ry) ≤ 10 ^ 38 := by
  have e1 : minPoolPrice = 1000 := by decide
  have e2 : maxPoolPrice = 10 ^ 38 := by decide
  unfold createBasicPool
  rw [if_neg (by omega)]
  simp only [e1, e2]
  generalize Dec.quo (Dec.ofInt rx) (Dec.ofInt ry) = q
  by_cases h1 : q < 1000
  · rw [if_pos h1]; simp; omega
  · rw [if_neg h1]
    by_cases h2 : q > 10 ^ 38
    · rw [if_pos h2]; simp at h2 ⊢; omega
    · rw [if_neg h2]; simp at h2 ⊢; omega

theorem placeOrder_iff (hw : WF s) {typ : OType} {orderer pairId : Nat} {dir : Dir} {offer : Coin} {demand : Denom}
    {price amount lifespan : Int} : (∃ s', placeOrder typ orderer pairId dir offer demand price amount lifespan s = some s') ↔
    ∃ pair t, s.getPair pairId = some pair ∧ offer.amt ≤ s.bank.bal (.user orderer) offer.denom ∧
      lifespan ≤ s.params.maxOrderLifespan ∧ priceAllowed s.params pair typ price = true ∧
      offer.denom = pair.offerDenom dir ∧ demand = pair.demandDenom dir ∧
      orderPrice s.params pair typ dir price = some t ∧ offerCoinAmount dir t amount ≤ offer.amt ∧ isTooSmallOrderAmount amount t = false := by
  constructor
  · rintro ⟨s', h⟩
    obtain ⟨p, t, b, g3, g1, g2, g4, g5, g5', g6, g7, g8, _⟩ := placeOrder_some h
    exact ⟨p, t, g3, g1, g2, g4, g5, g5', g6, g7, g8⟩
  · rintro ⟨p, t, g3, g1, g2, g4, g5, g5', g6, g7, g8⟩
    unfold placeOrder
    rw [if_neg (by omega), if_neg (by omega), g3]
    simp only
    rw [g4, if_neg (by decide), if_neg (by rintro (h | h); exact h g5; exact h g5'), g6]
    simp only
    rw [if_neg (by omega), g8, if_neg (by decide)]
    obtain ⟨_, _, _, _, f5⟩ := placed_facts (hw.pairNe p (hw.getPair_iff.1 g3).1).1 g5 g8
    obtain ⟨b, hb⟩ := send_isSome (b := s.bank) (src := .user orderer) (dst := .pairEscrow p.id)
      (cs := [⟨offer.denom, offerCoinAmount dir t amount⟩]) (by simpa using f5) (by
        intro c hc
        simp only [List.mem_singleton] at hc
        subst hc
        simp [amountOf]
        omega)
    rw [hb]
    exact ⟨_, rfl⟩

/-- The tests on the size, the denoms and the offer of an order, in the words of the specification. -/
theorem size_iff {amt t : Int} : isTooSmallOrderAmount amt t = false ↔ 100 ≤ amt ∧ 100 * 10 ^ 18 ≤ t * amt := by
  unfold isTooSmallOrderAmount
  simp only [Bool.or_eq_false_iff, decide_eq_false_iff_not, not_lt]
  have e1 : minCoinAmount = 100 := rfl
  have e2 : Dec.ofInt 100 = 100 * 10 ^ 18 := by decide
  rw [e1, e2]
  rfl

theorem needed_offer {dir : Dir} {t amt : Int} (h0 : 0 ≤ t * amt) : NeededOffer dir t amt (offerCoinAmount dir t amt) := by
  cases dir
  · have := quoteCeil_spec (p := t) (a := amt) h0
    have h1 : Dec.one = 1000000000000000000 := rfl
    rw [h1] at this
    show t * amt ≤ quoteCeil t amt * _ ∧ _
    refine ⟨this.2.1, ?_⟩
    show (quoteCeil t amt - 1) * 1000000000000000000 < t * amt
    omega
  · show amt = amt
    rfl

theorem denoms_iff {p : Pair} {dir : Dir} {a b : Denom} : (a = p.offerDenom dir ∧ b = p.demandDenom dir) ↔
    (a = (if dir = .buy then p.quote else p.base) ∧ b = (if dir = .buy then p.base else p.quote)) := by
  cases dir <;> simp [Pair.offerDenom, Pair.demandDenom]

theorem tick_for {dir : Dir} {prec : Nat} {x t : Int} (hx : 0 < x) :
    (match dir with | .buy => priceToDownTick? x prec | .sell => priceToUpTick? x prec) = some t ↔ TickFor dir prec x t := by
  cases dir
  · have e : priceToDownTick? x prec = some (priceToDownTick x prec) := by unfold priceToDownTick?; rw [if_neg (by omega)]
    have h : TickFor .buy prec x (priceToDownTick x prec) := ⟨isTick_down hx _, down_le hx _, fun u hu hup => down_greatest hx hu hup⟩
    simp only [e, Option.some.injEq]
    exact ⟨fun e => e ▸ h, fun h' => tickFor_unique h h'⟩
  · have e : priceToUpTick? x prec = some (priceToUpTick x prec) := by unfold priceToUpTick?; rw [if_neg (by omega)]
    have h : TickFor .sell prec x (priceToUpTick x prec) := isCeil_up hx _
    simp only [e, Option.some.injEq]
    exact ⟨fun e => e ▸ h, fun h' => tickFor_unique h h'⟩

end Verif.Dex

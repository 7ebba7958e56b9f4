import Verif.Proofs.Ladder
/-! # C64: a pool offers its whole liquidity

`BuyLadder`, `SellLadder` are defined in `Verif/Spec/Pool.lean`.  `lowest`, `highest` is the price window of the pair,
`pp` the pool price; decimals are integers scaled by `10^18`. -/
namespace Verif.Props
open Verif Verif.Amm Verif.Spec

/-- C64: at a price below its own, a basic pool buys the greatest amount after which its reserves still imply at least
that price, `price * (ry + b) ≤ rx` (capped at `10^40`), and at or above its own price nothing; at a price above its own it
sells the greatest amount after which its reserves imply at most that price, `rx ≤ price * (ry - s)`, and at or below its
own price nothing. -/
theorem C64_basic_depth_exact (p : Pool) (pp price : Int) (hr : p.range = none) (hrx : 0 ≤ p.rx) (hry : 0 ≤ p.ry)
    (hpp : p.price = some pp) (h1 : minPoolPrice ≤ price) (h2 : price ≤ maxPoolPrice) :
    ∃ b s, p.buyAmountOver price = some b ∧ p.sellAmountUnder price = some s ∧ 0 ≤ b ∧ 0 ≤ s ∧
      (pp ≤ price → b = 0) ∧
      (price < pp → b ≤ 10 ^ 40 ∧ (0 < b → price * (p.ry + b) ≤ p.rx * 10 ^ 18) ∧
        ∀ c, b < c → c ≤ 10 ^ 40 → p.rx * 10 ^ 18 < price * (p.ry + c)) ∧
      (price ≤ pp → s = 0) ∧
      (pp < price → (0 < s → p.rx * 10 ^ 18 ≤ price * (p.ry - s)) ∧
        ∀ c, s < c → price * (p.ry - c) < p.rx * 10 ^ 18) := by
  have ho := Dec.one_pos'
  have e18 : (10 : Int) ^ 18 = Dec.one := by decide
  have e40 : (10 : Int) ^ 40 = maxCoinAmount := by decide
  rw [e18, e40]
  have hm0 : 0 < minPoolPrice := by decide
  have hp0 : 0 < price := by omega
  have hpn : 0 ≤ pp := sound_price (p := p) ⟨hrx, hry, by unfold Pool.transX; rw [hr], by unfold Pool.transY; rw [hr],
    by intro r e; rw [hr] at e; simp at e⟩ hpp
  have hf : max price p.floorPrice = price := by unfold Pool.floorPrice; rw [hr]; exact max_eq_left h1
  have hc : min price p.ceilPrice = price := by unfold Pool.ceilPrice; rw [hr]; exact min_eq_left h2
  have hb := buy_eq hrx hpp hp0
  have hs := sell_eq (op := price) hpp hpn
  rw [hf] at hb
  rw [hc] at hs
  refine ⟨_, _, hb, hs, ?_, ?_, ?_, ?_, ?_, ?_⟩
  · split
    · omega
    · rename_i h
      push Not at h
      exact le_min (Int.ediv_nonneg (by omega) (by omega)) (by decide)
  · split
    · omega
    · exact le_max_right _ _
  · intro h; rw [if_pos (.inl h)]
  · intro h
    have hdx : p.dx price = p.rx * Dec.one - price * p.ry := by
      unfold Pool.dx; rw [hr]; rfl
    by_cases hd : p.dx price ≤ 0
    · rw [if_pos (.inr hd)]
      refine ⟨by decide, fun h => by omega, fun c hc _ => ?_⟩
      have : 0 < price * c := Int.mul_pos hp0 hc
      have e : price * (p.ry + c) = price * p.ry + price * c := by ring
      omega
    · rw [if_neg (by push Not; exact ⟨h, by omega⟩)]
      have l1 : p.dx price / price * price ≤ p.dx price := Int.ediv_mul_le _ (by omega)
      have l2 : p.dx price < (p.dx price / price + 1) * price := Int.lt_ediv_add_one_mul_self _ hp0
      refine ⟨min_le_right _ _, fun _ => ?_, fun c hc hc2 => ?_⟩
      · have l3 : price * min (p.dx price / price) maxCoinAmount ≤ price * (p.dx price / price) :=
          Int.mul_le_mul_of_nonneg_left (min_le_left _ _) (by omega)
        rw [Int.mul_comm] at l1
        have e : price * (p.ry + min (p.dx price / price) maxCoinAmount) =
          price * p.ry + price * min (p.dx price / price) maxCoinAmount := by ring
        omega
      · have hcq : p.dx price / price < c := by
          rcases min_lt_iff.1 hc with h' | h'
          · exact h'
          · omega
        have l3 : (p.dx price / price + 1) * price ≤ c * price := Int.mul_le_mul_of_nonneg_right (by omega) (by omega)
        have e : price * (p.ry + c) = price * p.ry + c * price := by ring
        omega
  · intro h; rw [if_pos h]
  · intro h
    rw [if_neg (by omega)]
    have hdy : p.dy price = Dec.truncateInt (Dec.ofInt p.ry - Dec.quoRoundUp (Dec.ofInt p.rx) price) := by
      unfold Pool.dy; rw [hr]
    -- the rounded-up quotient
    have hN : 0 ≤ Dec.ofInt p.rx * Dec.one := Int.mul_nonneg (Int.mul_nonneg hrx ho.le) ho.le
    obtain ⟨u1, u2⟩ : p.rx * Dec.one * Dec.one ≤ Dec.quoRoundUp (Dec.ofInt p.rx) price * price ∧
        Dec.quoRoundUp (Dec.ofInt p.rx) price * price < p.rx * Dec.one * Dec.one + price := by
      unfold Dec.quoRoundUp
      simp only
      rw [Int.tdiv_eq_ediv_of_nonneg hN, Int.tmod_eq_emod_of_nonneg hN]
      have e : Dec.ofInt p.rx * Dec.one = p.rx * Dec.one * Dec.one := rfl
      rw [e]
      have m1 := Int.mul_ediv_add_emod (p.rx * Dec.one * Dec.one) price
      have m2 := Int.emod_lt_of_pos (p.rx * Dec.one * Dec.one) hp0
      have m3 := Int.emod_nonneg (p.rx * Dec.one * Dec.one) (show price ≠ 0 by omega)
      generalize p.rx * Dec.one * Dec.one % price = r at *
      generalize p.rx * Dec.one * Dec.one / price = q at *
      split
      · have e2 : (q + 1) * price = price * q + price := by ring
        omega
      · have e2 : q * price = price * q := by ring
        omega
    generalize Dec.quoRoundUp (Dec.ofInt p.rx) price = R at *
    rw [hdy]
    -- the amount is the floor of (ry * one - R) / one, when positive
    have key : ∀ c : Int, 0 < c → (c ≤ Dec.truncateInt (Dec.ofInt p.ry - R) ↔ p.rx * Dec.one ≤ price * (p.ry - c)) := by
      intro c hc0
      have a1 : c ≤ Dec.truncateInt (Dec.ofInt p.ry - R) ↔ c * Dec.one ≤ Dec.ofInt p.ry - R := by
        by_cases hn : 0 ≤ Dec.ofInt p.ry - R
        · rw [trunc_nn hn]
          exact Int.le_ediv_iff_mul_le ho
        · constructor
          · intro h'
            exfalso
            have : Dec.truncateInt (Dec.ofInt p.ry - R) ≤ 0 := by
              unfold Dec.truncateInt
              have := Int.tdiv_nonneg (show 0 ≤ -(Dec.ofInt p.ry - R) by omega) ho.le
              rw [Int.neg_tdiv] at this
              omega
            omega
          · intro h'
            have := Int.mul_pos hc0 ho
            omega
      rw [a1]
      have a2 : c * Dec.one ≤ Dec.ofInt p.ry - R ↔ R ≤ (p.ry - c) * Dec.one := by
        have : (p.ry - c) * Dec.one = Dec.ofInt p.ry - c * Dec.one := by unfold Dec.ofInt; ring
        omega
      rw [a2]
      constructor
      · intro h'
        have b1 : R * price ≤ (p.ry - c) * Dec.one * price := Int.mul_le_mul_of_nonneg_right h' hp0.le
        have b2 : p.rx * Dec.one * Dec.one ≤ price * (p.ry - c) * Dec.one := by nlinarith
        exact le_of_mul_le_mul_right b2 ho
      · intro h'
        have b1 : p.rx * Dec.one * Dec.one ≤ price * (p.ry - c) * Dec.one := Int.mul_le_mul_of_nonneg_right h' ho.le
        have b2 : R * price < ((p.ry - c) * Dec.one + 1) * price := by nlinarith
        have := lt_of_mul_lt_mul_right b2 hp0.le
        omega
    refine ⟨fun hs0 => ?_, fun c hc => ?_⟩
    · have e : max (Dec.truncateInt (Dec.ofInt p.ry - R)) 0 = Dec.truncateInt (Dec.ofInt p.ry - R) := by
        rcases max_choice (Dec.truncateInt (Dec.ofInt p.ry - R)) 0 with e | e
        · exact e
        · rw [e] at hs0; omega
      rw [e] at hs0 ⊢
      exact (key _ hs0).1 le_rfl
    · by_contra hcon
      push Not at hcon
      obtain ⟨c1, c2⟩ := max_lt_iff.1 hc
      have := (key c c2).2 hcon
      omega

/-- A pool with 1,000,003 quote and 999 base coins (price 1001.004…) buys 429 more at price 700 and sells 332 at 1500. -/
example : (newBasicPool 1000003 999 1000000).price = some 1001004004004004004004 ∧
    (newBasicPool 1000003 999 1000000).buyAmountOver (700 * Dec.one) = some 429 ∧
    (newBasicPool 1000003 999 1000000).sellAmountUnder (1500 * Dec.one) = some 332 := by decide +kernel

/-- C64: when the pool price is not above the window, the buy orders are the whole ladder: the first order stands at the
first tick at or below the pool price where at least 100 would be bought, each order is for everything the pool buys
there, and the orders stop only at the end of the window (or of the reserve). -/
theorem C64_buy_ladder (sqrt : Int → Int) (p : Pool) (pp lowest highest : Int) (prec : Nat) (l : List (Int × Int))
    (hrx : 0 ≤ p.rx) (hry : 0 ≤ p.ry) (hlow : 0 < lowest) (hpp : p.price = some pp) (hle : pp ≤ highest)
    (hl : poolBuyOrdersRaw sqrt p lowest highest prec = .done l) : BuyLadder prec pp lowest p pp l := by
  unfold poolBuyOrdersRaw at hl
  rw [hpp] at hl
  simp only at hl
  by_cases h : pp ≤ lowest
  · rw [if_pos h] at hl
    have : l = [] := by simpa using hl.symm
    subst this
    intro u hu h1 h2
    have e : u = pp := by omega
    subst e
    refine ⟨0, ?_, by decide⟩
    rw [buy_eq hrx hpp (by omega), if_pos (.inl (le_max_left _ _))]
  · rw [if_neg h] at hl
    have e : buyFirst sqrt p pp highest = some (p, []) := by unfold buyFirst; rw [if_neg (by omega)]
    rw [e] at hl
    simp only [hpp] at hl
    rw [min_eq_right hle] at hl
    cases ht : priceToDownTick? pp prec with
    | none => rw [ht] at hl; simp at hl
    | some tick =>
      rw [ht] at hl
      simp only at hl
      have e' := down?_some ht
      have hp0 : 0 < pp := by omega
      obtain ⟨l', e1, e2⟩ := buyLoop_ladder prec hp0.le hlow _ p tick pp [] l hrx hry
        (fun _ => ⟨by rw [← e']; exact isTick_down hp0 prec, by rw [← e']; exact down_le hp0 prec⟩)
        (fun u hu _ hlt hus => by
          exfalso
          have := down_greatest hp0 hu hus
          omega) hl
      simp only [List.nil_append] at e1
      rw [e1]
      exact e2

/-- C64: the same for the sell orders, when the pool price is not below the window. -/
theorem C64_sell_ladder (sqrt : Int → Int) (p : Pool) (pp lowest highest : Int) (prec : Nat) (l : List (Int × Int))
    (hrx : 0 ≤ p.rx) (hry : 0 ≤ p.ry) (hlow : 0 < lowest) (hpp : p.price = some pp) (hle : lowest ≤ pp)
    (hl : poolSellOrdersRaw sqrt p lowest highest prec = .done l) : SellLadder prec pp highest p pp l := by
  have hp0 : 0 < pp := by omega
  unfold poolSellOrdersRaw at hl
  rw [hpp] at hl
  simp only at hl
  by_cases h : pp ≥ highest
  · rw [if_pos h] at hl
    have : l = [] := by simpa using hl.symm
    subst this
    intro u hu h1 h2
    have e : u = pp := by omega
    subst e
    refine ⟨0, ?_, .inl (by decide)⟩
    rw [sell_eq hpp hp0.le, if_pos (min_le_left _ _)]
  · rw [if_neg h] at hl
    have e : sellFirst sqrt p pp lowest = some (p, []) := by unfold sellFirst; rw [if_neg (by omega)]
    rw [e] at hl
    simp only [hpp] at hl
    rw [max_eq_right hle] at hl
    cases ht : priceToUpTick? pp prec with
    | none => rw [ht] at hl; simp at hl
    | some tick =>
      rw [ht] at hl
      simp only at hl
      have e' := up?_some ht
      have hup := isCeil_up hp0 prec
      rw [e'] at hup
      obtain ⟨l', e1, e2⟩ := sellLoop_ladder prec hp0.le _ p tick pp [] l (fun _ => hrx) hry (isTick_pos hup.1)
        ⟨hup.1, hup.2.1⟩
        (fun u hu hsu hlt => by
          exfalso
          have := hup.2.2 u hu hsu
          omega) hl
      simp only [List.nil_append] at e1
      rw [e1]
      exact e2

/-- C64: a basic pool with reserves and a price inside the window always offers both ladders: its order generation never
fails. -/
theorem C64_basic_pool_offers (sqrt : Int → Int) (poolId : Nat) (p : Pool) (pp lowest highest : Int) (prec : Nat)
    (hr : p.range = none) (hrx : 0 < p.rx) (hry : 0 < p.ry) (hlow : 0 < lowest) (hpp : p.price = some pp)
    (hle : lowest ≤ pp) (hle2 : pp ≤ highest) :
    BuyLadder prec pp lowest p pp ((poolBuyOrders sqrt poolId p lowest highest prec).map (fun o => (o.price, o.amount))) ∧
    SellLadder prec pp highest p pp ((poolSellOrders sqrt poolId p lowest highest prec).map (fun o => (o.price, o.amount))) := by
  have hp0 : 0 < pp := by omega
  constructor
  · have hf := (poolBuy_gen (sqrt := approxSqrt) (fun d hd => approxSqrt_nonneg d hd) (p := p) (prec := prec) hrx.le hry.le hlow
      (show 0 < highest by omega)).1
    have same : poolBuyOrdersRaw sqrt p lowest highest prec = poolBuyOrdersRaw approxSqrt p lowest highest prec := by
      unfold poolBuyOrdersRaw
      rw [hpp]
      simp only
      have e : ∀ s, buyFirst s p pp highest = some (p, []) := by intro s; unfold buyFirst; rw [if_neg (by omega)]
      rw [e, e]
    have hnp : poolBuyOrdersRaw approxSqrt p lowest highest prec ≠ .panic := by
      unfold poolBuyOrdersRaw
      rw [hpp]
      simp only
      by_cases h : pp ≤ lowest
      · rw [if_pos h]; simp
      · rw [if_neg h]
        have e : buyFirst approxSqrt p pp highest = some (p, []) := by unfold buyFirst; rw [if_neg (by omega)]
        rw [e]
        simp only [hpp]
        rw [min_eq_right hle2]
        unfold priceToDownTick?
        rw [if_neg (by omega)]
        exact buyLoop_no_panic prec hp0.le hlow _ _ _ _ hr hrx hry
    cases hraw : poolBuyOrdersRaw sqrt p lowest highest prec with
    | outOfFuel => rw [same] at hraw; exact absurd hraw hf
    | panic => rw [same] at hraw; exact absurd hraw hnp
    | done l =>
      have := C64_buy_ladder sqrt p pp lowest highest prec l hrx.le hry.le hlow hpp hle2 hraw
      unfold poolBuyOrders
      rw [hraw]
      simpa [LoopRes.orders, newPoolOrder, newBaseOrder, Function.comp_def] using this
  · have hf := (poolSell_gen (sqrt := approxSqrt) (fun d hd => approxSqrt_nonneg d hd) (p := p) (prec := prec)
      (lowest := lowest) (highest := highest) (fun _ => hrx.le) hry.le hlow
      (fun q hq => by rw [hpp] at hq; cases hq; exact hp0.le)).1
    have same : poolSellOrdersRaw sqrt p lowest highest prec = poolSellOrdersRaw approxSqrt p lowest highest prec := by
      unfold poolSellOrdersRaw
      rw [hpp]
      simp only
      have e : ∀ s, sellFirst s p pp lowest = some (p, []) := by intro s; unfold sellFirst; rw [if_neg (by omega)]
      rw [e, e]
    have hup := isCeil_up hp0 prec
    have hnp : poolSellOrdersRaw approxSqrt p lowest highest prec ≠ .panic := by
      unfold poolSellOrdersRaw
      rw [hpp]
      simp only
      by_cases h : pp ≥ highest
      · rw [if_pos h]; simp
      · rw [if_neg h]
        have e : sellFirst approxSqrt p pp lowest = some (p, []) := by unfold sellFirst; rw [if_neg (by omega)]
        rw [e]
        simp only [hpp]
        rw [max_eq_right hle]
        unfold priceToUpTick?
        rw [if_neg (by omega)]
        exact sellLoop_no_panic prec hp0.le _ _ _ _ hr hrx hry (isTick_pos hup.1)
    cases hraw : poolSellOrdersRaw sqrt p lowest highest prec with
    | outOfFuel => rw [same] at hraw; exact absurd hraw hf
    | panic => rw [same] at hraw; exact absurd hraw hnp
    | done l =>
      have := C64_sell_ladder sqrt p pp lowest highest prec l hrx.le hry.le hlow hpp hle hraw
      unfold poolSellOrders
      rw [hraw]
      simpa [LoopRes.orders, newPoolOrder, newBaseOrder, Function.comp_def] using this

/-- A pool of price 100.1 offers three buy orders in the window 95 to 105. -/
example : (newBasicPool 1000003 9990 1000000).price = some 100100400400400400400 ∧
    (poolBuyOrders approxSqrt 1 (newBasicPool 1000003 9990 1000000) (95 * Dec.one) (105 * Dec.one) 2).map
      (fun o => (o.price, o.amount)) =
    [(99100000000000000000, 100), (97100000000000000000, 106), (95100000000000000000, 106)] := by decide +kernel

end Verif.Props

import Verif.Proofs.DirectionLow
import Verif.Props.Match
import Verif.Props.Uncross
/-! # Which way a matching moves the price (C66) -/
namespace Verif.Props
open Verif Verif.Amm Verif.Spec

/-- What can be bought or sold at the last price, from the orders of the book: by buy orders with a limit above it, or from it on,
and by sell orders with a limit below it, or up to it. -/
def buyOver (h : Heap) (ps : List Nat) (last : Int) : Int :=
  depth h (newOrderBook h ps).orders last (fun o => o.dir == .buy && decide (last < o.price))
@[inherit_doc buyOver] def buyFrom (h : Heap) (ps : List Nat) (last : Int) : Int :=
  depth h (newOrderBook h ps).orders last (fun o => o.dir == .buy && decide (last ≤ o.price))
@[inherit_doc buyOver] def sellUnder (h : Heap) (ps : List Nat) (last : Int) : Int :=
  depth h (newOrderBook h ps).orders last (fun o => o.dir == .sell && decide (o.price < last))
@[inherit_doc buyOver] def sellTo (h : Heap) (ps : List Nat) (last : Int) : Int :=
  depth h (newOrderBook h ps).orders last (fun o => o.dir == .sell && decide (o.price ≤ last))

/-- The fills of the first stage are at the last price. -/
theorem single_prices {h : Heap} {ob : OrderBook} {last : Int} (hpos : 0 < last)
    (sb : SideOk h .buy ob.buys) (ss : SideOk h .sell ob.sells) {st : MState} {m : Bool}
    (e : matchAtSinglePrice h ob last = some (st, m)) :
    (∀ f ∈ st.log, f.price = last) ∧ SideOk st.heap .buy ob.buys ∧ SideOk st.heap .sell ob.sells := by
  rcases matchAtSinglePrice_spec hpos sb ss with ⟨_, f2⟩ | ⟨mm, fb, fsl, _, _, f2, i1, i2, _, _, _, hg, _, _⟩
  · rw [f2] at e
    simp only [Option.some.injEq, Prod.mk.injEq] at e
    rw [← e.1]
    exact ⟨by simp, sb, ss⟩
  · rw [f2] at e
    simp only [Option.some.injEq, Prod.mk.injEq] at e
    rw [← e.1]
    refine ⟨?_, sb.applyGood hg.valid, ss.applyGood hg.valid⟩
    intro f hf
    have hf : f ∈ [] ++ (fb ++ fsl) := hf
    simp only [List.nil_append, List.mem_append] at hf
    rcases hf with hf | hf
    · exact i1.price_eq f hf
    · exact i2.price_eq f hf

/-- **C66** When the buy orders above the last price ask for more than the sell orders up to it offer, a matching trades at no
price below the last price, whatever that is. -/
theorem C66_price_up (h : Heap) (ps : List Nat) (last : Int) (hpos : 0 < last) (hnd : ps.Nodup)
    (hl : ∀ p ∈ ps, Live (h p)) (hx : sellTo h ps last < buyOver h ps last) (r : MatchResult)
    (hr : obMatch h (newOrderBook h ps) last = some r) :
    (∀ f ∈ r.st.log, last ≤ f.price) ∧ (r.matched = true → last ≤ r.matchPrice) := by
  obtain ⟨sb, ss⟩ := book_sides hnd hl
  have hk := bookOk_new h ps
  have hdir := (C27_price_direction h ps last hpos hnd hl).1.2 hx
  unfold obMatch at hr
  by_cases h0 : (newOrderBook h ps).buys.length = 0 ∨ (newOrderBook h ps).sells.length = 0
  · rw [if_pos h0] at hr
    simp only [Option.some.injEq] at hr
    rw [← hr]
    exact ⟨by simp, by simp⟩
  · rw [if_neg h0] at hr
    simp only at hr
    cases e : matchAtSinglePrice h (newOrderBook h ps) last with
    | none => rw [e] at hr; cases hr
    | some x =>
      obtain ⟨st, m⟩ := x
      rw [e, hdir] at hr
      simp only at hr
      rw [if_neg (by simp)] at hr
      cases e2 : matchLoop .increasing ((newOrderBook h ps).buys.length + (newOrderBook h ps).sells.length + 1) st
          (newOrderBook h ps).buys (newOrderBook h ps).sells last m with
      | none => rw [e2] at hr; cases hr
      | some x =>
        obtain ⟨st', mp', m'⟩ := x
        rw [e2] at hr
        simp only [Option.some.injEq] at hr
        rw [← hr]
        clear hr
        obtain ⟨l1, sb', ss'⟩ := single_prices hpos sb ss e
        have hz : PriceDir.increasing = .increasing → ∀ t ∈ (newOrderBook h ps).sells, ¬ (last < t.price) → ∀ q ∈ t.orders,
            matchableAmount (st.heap q) t.price = 0 := by
          intro _ t ht hn q hq
          have hin : t ∈ buildSide true (newOrderBook h ps).sells last := by
            rw [buildSide_filter last hk.sells.sorted, List.mem_filter]
            exact ⟨ht, by simpa using hn⟩
          have nnS := ticksTotal_nonneg (ts := (newOrderBook h ps).sells.filter (fun t => decide (t.price ≤ last))) hpos
            (fun p hpm => by
              obtain ⟨t, ht, hpt⟩ := List.mem_flatMap.1 hpm
              exact ss.ok p (List.mem_flatMap.2 ⟨t, List.mem_of_mem_filter ht, hpt⟩))
          refine single_exhausts_sells hpos sb ss e ?_ ?_ t hin q hq
          · intro hnil
            rw [buys_split hk.buys.sorted last, List.append_eq_nil_iff] at hnil
            unfold sellTo buyOver at hx
            rw [depth_book sb ss .sell last (fun x => decide (x ≤ last)), depth_book sb ss .buy last (fun x => decide (last < x))] at hx
            simp only at hx
            rw [← ticks_filter_total (fun x => decide (x ≤ last)) last ss.prices,
              ← ticks_filter_total (fun x => decide (last < x)) last sb.prices, hnil.1] at hx
            have : ticksTotal h [] last = 0 := rfl
            omega
          unfold sellTo buyOver at hx
          rw [depth_book sb ss .sell last (fun x => decide (x ≤ last)), depth_book sb ss .buy last (fun x => decide (last < x))] at hx
          simp only at hx
          rw [← ticks_filter_total (fun x => decide (x ≤ last)) last ss.prices,
            ← ticks_filter_total (fun x => decide (last < x)) last sb.prices] at hx
          rw [buildSide_filter last hk.sells.sorted, buys_split hk.buys.sorted last, ticksTotal_append]
          have nn := ticksTotal_nonneg (ts := (newOrderBook h ps).buys.filter (fun t => decide (t.price = last))) hpos
            (fun p hpm => by
              obtain ⟨t, ht, hpt⟩ := List.mem_flatMap.1 hpm
              exact sb.ok p (List.mem_flatMap.2 ⟨t, List.mem_of_mem_filter ht, hpt⟩))
          simp only [if_true]
          omega
        obtain ⟨r1, r2⟩ := loop_prices .increasing (fun x => last < x) _ _ _ _ _ _ _ _ _ sb' ss' hz (by simp) e2
        refine ⟨fun f hf => ?_, fun _ => ?_⟩
        · rcases r1 f hf with h1 | h1
          · exact le_of_eq (l1 f h1).symm
          · exact le_of_lt h1
        · rcases r2 with h1 | h1
          · exact le_of_eq h1.symm
          · exact le_of_lt h1

/-- **C66** When the sell orders below the last price offer more than the buy orders from it on ask for, a matching trades at no
price above the last price. -/
theorem C66_price_down (h : Heap) (ps : List Nat) (last : Int) (hlast : Dec.one ≤ last) (hnd : ps.Nodup)
    (hl : ∀ p ∈ ps, Live (h p)) (hx : buyFrom h ps last < sellUnder h ps last) (r : MatchResult)
    (hr : obMatch h (newOrderBook h ps) last = some r) :
    (∀ f ∈ r.st.log, f.price ≤ last) ∧ r.matchPrice ≤ last := by
  have hpos : 0 < last := lt_of_lt_of_le Verif.Amm.one_pos hlast
  obtain ⟨sb, ss⟩ := book_sides hnd hl
  have hk := bookOk_new h ps
  have hdir := (C27_price_direction h ps last hpos hnd hl).2.1.2 hx
  unfold obMatch at hr
  by_cases h0 : (newOrderBook h ps).buys.length = 0 ∨ (newOrderBook h ps).sells.length = 0
  · rw [if_pos h0] at hr
    simp only [Option.some.injEq] at hr
    rw [← hr]
    exact ⟨by simp, le_of_lt hpos⟩
  · rw [if_neg h0] at hr
    simp only at hr
    cases e : matchAtSinglePrice h (newOrderBook h ps) last with
    | none => rw [e] at hr; cases hr
    | some x =>
      obtain ⟨st, m⟩ := x
      rw [e, hdir] at hr
      simp only at hr
      rw [if_neg (by simp)] at hr
      cases e2 : matchLoop .decreasing ((newOrderBook h ps).buys.length + (newOrderBook h ps).sells.length + 1) st
          (newOrderBook h ps).buys (newOrderBook h ps).sells last m with
      | none => rw [e2] at hr; cases hr
      | some x =>
        obtain ⟨st', mp', m'⟩ := x
        rw [e2] at hr
        simp only [Option.some.injEq] at hr
        rw [← hr]
        clear hr
        obtain ⟨l1, sb', ss'⟩ := single_prices hpos sb ss e
        have hz : PriceDir.decreasing ≠ .increasing → ∀ t ∈ (newOrderBook h ps).buys, ¬ (t.price < last) → ∀ q ∈ t.orders,
            matchableAmount (st.heap q) t.price = 0 := by
          intro _ t ht hn q hq
          have hin : t ∈ buildSide false (newOrderBook h ps).buys last := by
            rw [buildSide_filter last hk.buys.sorted, List.mem_filter]
            exact ⟨ht, by simpa using hn⟩
          refine (single_exhausts hlast sb ss e).2 ?_ t hin q hq
          unfold buyFrom sellUnder at hx
          rw [depth_book sb ss .buy last (fun x => decide (last ≤ x)), depth_book sb ss .sell last (fun x => decide (x < last))] at hx
          simp only at hx
          rw [← ticks_filter_total (fun x => decide (last ≤ x)) last sb.prices,
            ← ticks_filter_total (fun x => decide (x < last)) last ss.prices] at hx
          rw [buildSide_filter last hk.buys.sorted, sells_split hk.sells.sorted last, ticksTotal_append]
          have nn := ticksTotal_nonneg (ts := (newOrderBook h ps).sells.filter (fun t => decide (t.price = last))) hpos
            (fun p hpm => by
              obtain ⟨t, ht, hpt⟩ := List.mem_flatMap.1 hpm
              exact ss.ok p (List.mem_flatMap.2 ⟨t, List.mem_of_mem_filter ht, hpt⟩))
          simp only [Bool.false_eq_true, if_false]
          omega
        obtain ⟨r1, r2⟩ := loop_prices .decreasing (fun x => x < last) _ _ _ _ _ _ _ _ _ sb' ss' (by simp) hz e2
        refine ⟨fun f hf => ?_, ?_⟩
        · rcases r1 f hf with h1 | h1
          · exact le_of_eq (l1 f h1)
          · exact le_of_lt h1
        · rcases r2 with h1 | h1
          · exact le_of_eq h1
          · exact le_of_lt h1

/-- **C66** When neither side exceeds the other, every trade is at the last price, whatever the price is, and so is the match
price. -/
theorem C66_price_stays (h : Heap) (ps : List Nat) (last : Int) (hlast : 0 < last) (hnd : ps.Nodup)
    (hl : ∀ p ∈ ps, Live (h p)) (h1 : buyOver h ps last ≤ sellTo h ps last) (h2 : sellUnder h ps last ≤ buyFrom h ps last)
    (r : MatchResult) (hr : obMatch h (newOrderBook h ps) last = some r) :
    (∀ f ∈ r.st.log, f.price = last) ∧ (r.matched = true → r.matchPrice = last) := by
  obtain ⟨sb, ss⟩ := book_sides hnd hl
  obtain ⟨d1, d2, _⟩ := C27_price_direction h ps last hlast hnd hl
  have hdir : priceDirection h (newOrderBook h ps) last = .staying := by
    cases hd : priceDirection h (newOrderBook h ps) last with
    | staying => rfl
    | increasing => exact absurd (d1.1 hd) (not_lt.2 h1)
    | decreasing => exact absurd (d2.1 hd) (not_lt.2 h2)
  unfold obMatch at hr
  by_cases h0 : (newOrderBook h ps).buys.length = 0 ∨ (newOrderBook h ps).sells.length = 0
  · rw [if_pos h0] at hr
    simp only [Option.some.injEq] at hr
    rw [← hr]
    exact ⟨by simp, by simp⟩
  · rw [if_neg h0] at hr
    simp only at hr
    cases e : matchAtSinglePrice h (newOrderBook h ps) last with
    | none => rw [e] at hr; cases hr
    | some x =>
      obtain ⟨st, m⟩ := x
      rw [e, hdir] at hr
      simp only [if_true, Option.some.injEq] at hr
      rw [← hr]
      exact ⟨(single_prices hlast sb ss e).1, fun _ => rfl⟩

/-- A book: two buys and two sells. -/
private def dirDemo : Heap := fun i =>
  match i with
  | 0 => newBaseOrder .buy (12 * 10 ^ 17) 1000 1200 (.user 1 1)
  | 1 => newBaseOrder .buy (11 * 10 ^ 17) 500 550 (.user 2 1)
  | 2 => newBaseOrder .sell (10 * 10 ^ 17) 700 700 (.user 3 1)
  | _ => newBaseOrder .sell (115 * 10 ^ 16) 900 900 (.user 4 1)

/-- All three cases occur with the book, and trades happen: from 1.05 the price rises to 1.15, from 1.3 it falls to 1.2 and
from 1.15 it stays. -/
example : (∀ p ∈ [0, 1, 2, 3], Live (dirDemo p)) ∧
    (sellTo dirDemo [0, 1, 2, 3] (105 * 10 ^ 16) < buyOver dirDemo [0, 1, 2, 3] (105 * 10 ^ 16) ∧
      (obMatch dirDemo (newOrderBook dirDemo [0, 1, 2, 3]) (105 * 10 ^ 16)).map (fun r => (r.matchPrice, r.st.log.map (·.price))) =
        some (115 * 10 ^ 16, [105 * 10 ^ 16, 105 * 10 ^ 16, 115 * 10 ^ 16, 115 * 10 ^ 16])) ∧
    (buyFrom dirDemo [0, 1, 2, 3] (13 * 10 ^ 17) < sellUnder dirDemo [0, 1, 2, 3] (13 * 10 ^ 17) ∧
      (obMatch dirDemo (newOrderBook dirDemo [0, 1, 2, 3]) (13 * 10 ^ 17)).map (fun r => (r.matchPrice, r.st.log.map (·.price))) =
        some (12 * 10 ^ 17, [12 * 10 ^ 17, 12 * 10 ^ 17, 12 * 10 ^ 17, 12 * 10 ^ 17])) ∧
    (buyOver dirDemo [0, 1, 2, 3] (115 * 10 ^ 16) ≤ sellTo dirDemo [0, 1, 2, 3] (115 * 10 ^ 16) ∧
      sellUnder dirDemo [0, 1, 2, 3] (115 * 10 ^ 16) ≤ buyFrom dirDemo [0, 1, 2, 3] (115 * 10 ^ 16) ∧
      (obMatch dirDemo (newOrderBook dirDemo [0, 1, 2, 3]) (115 * 10 ^ 16)).map (fun r => (r.matchPrice, r.st.log.map (·.price))) =
        some (115 * 10 ^ 16, [115 * 10 ^ 16, 115 * 10 ^ 16, 115 * 10 ^ 16])) := by
  decide +kernel

/-- The same book at a hundredth of the prices, with amounts a hundred times as big. -/
private def dirLow : Heap := fun i =>
  match i with
  | 0 => newBaseOrder .buy (12 * 10 ^ 15) 100000 1200 (.user 1 1)
  | 1 => newBaseOrder .buy (11 * 10 ^ 15) 50000 550 (.user 2 1)
  | 2 => newBaseOrder .sell (10 * 10 ^ 15) 70000 70000 (.user 3 1)
  | _ => newBaseOrder .sell (115 * 10 ^ 14) 90000 90000 (.user 4 1)

/-- The rising case occurs below price one too: from 0.0105 the price rises to 0.0115. -/
example : (∀ p ∈ [0, 1, 2, 3], Live (dirLow p)) ∧
    sellTo dirLow [0, 1, 2, 3] (105 * 10 ^ 14) < buyOver dirLow [0, 1, 2, 3] (105 * 10 ^ 14) ∧
    (obMatch dirLow (newOrderBook dirLow [0, 1, 2, 3]) (105 * 10 ^ 14)).map (·.matchPrice) = some (115 * 10 ^ 14) := by
  decide +kernel

/-- **C66** Below one the price can move the other way: the last price is 0.005 and only the sell side has something to trade at
it, yet the trade happens at 0.01, since the buy order of 100 at 0.01 is worth nothing at 0.005. -/
theorem C66_wrong_way_below_one : ∃ (h : Heap) (last : Int) (r : MatchResult), 0 < last ∧ (∀ p ∈ [0, 1], Live (h p)) ∧
    buyFrom h [0, 1] last < sellUnder h [0, 1] last ∧ obMatch h (newOrderBook h [0, 1]) last = some r ∧
    r.matched = true ∧ last < r.matchPrice := by
  let h : Heap := fun i =>
    match i with
    | 0 => newBaseOrder .buy (10 ^ 16) 100 1 (.user 1 1)
    | _ => newBaseOrder .sell (4 * 10 ^ 15) 1000 1000 (.user 2 1)
  have e : ∃ r, obMatch h (newOrderBook h [0, 1]) (5 * 10 ^ 15) = some r := by
    rw [← Option.isSome_iff_exists]; decide +kernel
  obtain ⟨r, hr⟩ := e
  have f : (obMatch h (newOrderBook h [0, 1]) (5 * 10 ^ 15)).map (fun r => (r.matched, r.matchPrice)) = some (true, 10 ^ 16) := by
    decide +kernel
  rw [hr] at f
  simp only [Option.map_some, Option.some.injEq, Prod.mk.injEq] at f
  refine ⟨h, 5 * 10 ^ 15, r, by decide, by decide +kernel, by decide +kernel, hr, f.1, ?_⟩
  rw [f.2]; decide

end Verif.Props

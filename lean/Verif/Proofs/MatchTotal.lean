import Verif.Proofs.Conserve
import Verif.Props.Price
namespace Verif.Dex
open Verif Verif.Amm Verif.Spec

theorem buyOver_isSome {p : Pool} {mp pp : Int} (hmp : 0 < mp) (hp : p.price = some pp) : ∃ b, p.buyAmountOver mp = some b := by
  have hc : ∀ x, ∃ b, cappedQuo x mp = some b := fun x => by
    unfold cappedQuo
    rw [if_neg (show ¬ mp = 0 by omega)]
    exact ⟨_, rfl⟩
  unfold Pool.buyAmountOver
  simp only [hp]
  generalize (if mp < p.floorPrice then p.floorPrice else mp) = u
  by_cases h1 : u ≥ pp
  · exact ⟨0, by rw [if_pos h1]⟩
  · rw [if_neg h1]
    split
    · by_cases h2 : ¬ 0 < Dec.ofInt p.rx - Dec.mulInt u p.ry
      · exact ⟨0, by rw [if_pos h2]⟩
      · rw [if_neg h2]; exact hc _
    · by_cases h2 : ¬ 0 < p.xComp - Dec.mul u p.yComp
      · exact ⟨0, by rw [if_pos h2]⟩
      · rw [if_neg h2]; exact hc _

theorem sellUnder_isSome {p : Pool} {mp pp : Int} (hp : p.price = some pp) (h0 : 0 ≤ pp) : ∃ b, p.sellAmountUnder mp = some b := by
  unfold Pool.sellAmountUnder
  simp only [hp]
  generalize (if mp > p.ceilPrice then p.ceilPrice else mp) = u
  by_cases h1 : u ≤ pp
  · exact ⟨0, by rw [if_pos h1]⟩
  · rw [if_neg h1, if_neg (show ¬ u = 0 by omega)]
    split <;> exact ⟨_, rfl⟩

theorem singlePrice_isSome {mp : Int} (hmp : 0 < mp) : ∀ {ps : List (Nat × Pool)}, (∀ e ∈ ps, ∃ pp, e.2.price = some pp ∧ 0 ≤ pp) →
    ∃ pos, singlePriceOrders mp ps = some pos := by
  intro ps
  induction ps with
  | nil => intro _; exact ⟨[], rfl⟩
  | cons e ps ih =>
    intro h
    obtain ⟨id, p⟩ := e
    obtain ⟨pp, h1, h2⟩ := h (id, p) (by simp)
    obtain ⟨b, hb⟩ := buyOver_isSome hmp h1
    obtain ⟨sl, hs⟩ := sellUnder_isSome (mp := mp) h1 h2
    obtain ⟨r, hr⟩ := ih (fun e he => h e (by simp [he]))
    unfold singlePriceOrders
    simp only at hb hs
    rw [hb, hs, hr]
    exact ⟨_, rfl⟩

/-- The matching of live orders and pools with a price does not panic. -/
theorem keeperMatch_isSome {env : Env} {pr : Params} (hpr : SaneParams pr) {os : List Order} {pools : List (Nat × Pool)}
    {last : Option Int} (hl : ∀ o ∈ os, Live o) (hlast : ∀ p, last = some p → 10 ^ 18 < 2 * (p * (10 ^ 18 - pr.maxPriceLimitRatio)))
    (hpp : ∀ e ∈ pools, ∃ pp, e.2.price = some pp ∧ 0 ≤ pp) : ∃ r, keeperMatch env pr os pools last = some r := by
  unfold keeperMatch
  cases last with
  | none =>
    simp only
    rw [if_neg (by
      simp only [List.any_eq_true, not_exists, not_and]
      intro e he
      obtain ⟨pp, h1, _⟩ := hpp e he
      simp [h1])]
    cases hm : findMatchPrice (multipleOrderViews ((makeView (heapOf os) (bookOf os)).toView :: pools.map (fun p => p.2.toView))) pr.tickPrec with
    | none => exact ⟨_, rfl⟩
    | some mp =>
      have hmp0 := findMatchPrice_pos hpr.prec hm
      obtain ⟨pos, hpos⟩ := singlePrice_isSome hmp0 hpp
      simp only [hpos]
      have hpo := singlePrice_pos hmp0 hpos
      have hal := all_live (pos := pos) hl (fun o ho => by obtain ⟨e, _, hi⟩ := hpo o ho; exact hi.live)
      obtain ⟨st, m, e1, _⟩ := matchAtSinglePrice_book hmp0 List.nodup_range hal
      have e1 : matchAtSinglePrice (heapOf (os ++ pos)) (bookOf (os ++ pos)) mp = some (st, m) := e1
      rw [e1]
      cases m <;> exact ⟨_, rfl⟩
  | some lp =>
    simp only
    have h2 := hlast lp rfl
    have hr2 := hpr.ratio.2
    have e10 : (10:Int) ^ 18 = Dec.one := by decide
    have hlp : 0 < lp := by
      by_contra hc
      have : lp * (10 ^ 18 - pr.maxPriceLimitRatio) ≤ 0 := mul_nonpos_of_nonpos_of_nonneg (by omega) (by rw [e10]; omega)
      omega
    obtain ⟨lo, hi, hlim⟩ := (Verif.Props.C06_price_limits lp pr.maxPriceLimitRatio pr.tickPrec hlp hpr.ratio.1 (by rw [e10]; exact hr2)).2 h2
    have hlim : pr.priceLimits lp = some (lo, hi) := hlim
    obtain ⟨hlo, hhi⟩ := priceLimits_pos hpr hlp hlim
    rw [hlim]
    simp only
    have hpo : ∀ o ∈ pools.flatMap (fun p => poolOrders env.sqrt p.1 p.2 lo hi pr.tickPrec), Live o := by
      intro o ho
      obtain ⟨p, hp, hop⟩ := List.mem_flatMap.1 ho
      exact (poolOrders_pos hlo hhi (fun pp h => by
        obtain ⟨pp', h1, h2⟩ := hpp p hp
        rw [h1] at h; cases h; exact h2) o hop).live
    obtain ⟨r, e1, _⟩ := obMatch_book hlp List.nodup_range (all_live hl hpo)
    have e1 : obMatch (heapOf (os ++ pools.flatMap (fun p => poolOrders env.sqrt p.1 p.2 lo hi pr.tickPrec)))
      (bookOf (os ++ pools.flatMap (fun p => poolOrders env.sqrt p.1 p.2 lo hi pr.tickPrec))) lp = some r := e1
    rw [e1]
    simp only
    split <;> exact ⟨_, rfl⟩

end Verif.Dex

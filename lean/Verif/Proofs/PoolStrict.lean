import Verif.Proofs.PoolLoop
import Verif.Proofs.PoolSell
/-! # The buy orders of a pool are strictly below its price -/
namespace Verif.Amm
open Verif

theorem buyLoop_prefix (prec : Nat) {pp lowest : Int} :
    ∀ (fuel : Nat) (p : Pool) (tick : Int) (acc l : List (Int × Int)),
      buyLoop prec pp lowest fuel p tick acc = .done l → ∃ l', l = acc ++ l' := by
  intro fuel
  induction fuel with
  | zero => intro p tick acc l h; simp [buyLoop] at h
  | succ n ih =>
    intro p tick acc l h
    rw [buyLoop] at h
    split at h
    · exact ⟨[], by simpa using h.symm⟩
    · split at h
      · simp at h
      · split at h
        · exact ih _ _ _ _ h
        · simp only at h
          split at h
          · exact ⟨_, (LoopRes.done.inj h).symm⟩
          · split at h
            · simp at h
            · obtain ⟨l', e⟩ := ih _ _ _ _ h
              exact ⟨_, by rw [e, List.append_assoc]⟩

theorem buyLoop_first (prec : Nat) {pp lowest : Int} :
    ∀ (fuel : Nat) (p : Pool) (tick : Int) (o : Int × Int) (l : List (Int × Int)),
      buyLoop prec pp lowest fuel p tick [] = .done (o :: l) → p.buyAmountOver o.1 = some o.2 ∧ minCoinAmount ≤ o.2 := by
  intro fuel
  induction fuel with
  | zero => intro p tick o l h; simp [buyLoop] at h
  | succ n ih =>
    intro p tick o l h
    rw [buyLoop] at h
    split at h
    · simp at h
    · split at h
      · simp at h
      · rename_i amt hb
        split at h
        · exact ih _ _ _ _ h
        · rename_i hm
          have key : o = (tick, amt) := by
            simp only at h
            split at h
            · have := LoopRes.done.inj h
              simp at this
              exact this.1.symm
            · split at h
              · simp at h
              · obtain ⟨l', e⟩ := buyLoop_prefix _ _ _ _ _ _ h
                simp at e
                exact e.1
          subst key
          exact ⟨hb, by simp only; omega⟩

theorem buyAmount_below {p : Pool} {t a pp : Int} (h : p.buyAmountOver t = some a) (ha : 0 < a) (hp : p.price = some pp) : t < pp := by
  unfold Pool.buyAmountOver at h
  simp only [hp] at h
  have h1 : t ≤ (if t < p.floorPrice then p.floorPrice else t) := by split <;> omega
  by_cases hc : (if t < p.floorPrice then p.floorPrice else t) ≥ pp
  · rw [if_pos hc] at h
    have := Option.some.inj h
    omega
  · omega

/-- Every buy order of a pool is strictly below the pool price. -/
theorem poolBuy_strict {sqrt : Int → Int} (hs : ∀ d, 0 ≤ d → 0 ≤ sqrt d) {p : Pool} {lowest highest : Int} {prec : Nat}
    (hrx : 0 ≤ p.rx) (hry : 0 ≤ p.ry) (hlow : 0 < lowest) (hh : 0 < highest) {l : List (Int × Int)}
    (h : poolBuyOrdersRaw sqrt p lowest highest prec = .done l) {pp : Int} (hp : p.price = some pp) : ∀ o ∈ l, o.1 < pp := by
  obtain ⟨_, hsp⟩ := poolBuy_gen hs (prec := prec) hrx hry hlow hh
  obtain ⟨_, h2, h3, _⟩ := hsp l h
  by_cases hc : highest < pp
  · intro o ho
    have := (h2 o ho).2.1
    omega
  · unfold poolBuyOrdersRaw at h
    rw [hp] at h
    simp only at h
    split at h
    · have := LoopRes.done.inj h
      subst this
      simp
    · split at h
      · simp at h
      · rename_i p' acc hbf
        obtain ⟨_, _, _, b4, _, b6⟩ := buyFirst_facts hs hrx hry (by omega) hbf
        have := b6 hc
        subst this
        have hacc : acc = [] := by
          cases acc with
          | nil => rfl
          | cons a acc => exact absurd (b4 a (by simp)).2.1 hc
        subst hacc
        split at h
        · simp at h
        · split at h
          · simp at h
          · cases l with
            | nil => simp
            | cons o l =>
              obtain ⟨k1, k2⟩ := buyLoop_first _ _ _ _ _ _ h
              have hlt := buyAmount_below k1 (by unfold minCoinAmount at k2; omega) hp
              intro o' ho'
              rcases List.mem_cons.1 ho' with rfl | ho'
              · exact hlt
              · have := (List.pairwise_cons.1 h3).1 o' ho'
                omega

end Verif.Amm

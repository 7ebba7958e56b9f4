import Verif.Proofs.Halt
import Verif.Spec.Halt
import Verif.Proofs.BatchTrace
import Verif.Props.Liquidity
/-! # The deposit and withdrawal passes do not fail (C61) -/
namespace Verif.Dex
open Verif Verif.Amm Verif.Spec

variable {s s' : State}

theorem sum_single_le {α : Type} (f : α → Int) : ∀ {l : List α} {x : α}, (∀ y ∈ l, 0 ≤ f y) → x ∈ l → f x ≤ (l.map f).sum
  | [], _, _, hx => by cases hx
  | y :: l, x, h, hx => by
    rw [List.map_cons, List.sum_cons]
    have h0 := h y (by simp)
    have hs : 0 ≤ (l.map f).sum := by
      apply List.sum_nonneg
      intro z hz
      obtain ⟨w, hw, rfl⟩ := List.mem_map.1 hz
      exact h w (by simp [hw])
    rcases List.mem_cons.1 hx with rfl | hx
    · omega
    · have := sum_single_le f (fun z hz => h z (by simp [hz])) hx
      omega

theorem pendingDeposits_nonneg (hw : WF s) (d : Denom) : 0 ≤ pendingDeposits s.deposits d := by
  apply List.sum_nonneg
  intro z hz
  obtain ⟨r, hr, rfl⟩ := List.mem_map.1 hz
  split
  · exact amountOf_nonneg (fun c hc => le_of_lt ((hw.deps r hr).2.2.1 c hc)) d
  · exact le_refl _

theorem pendingWithdraws_nonneg (hw : WF s) (d : Denom) : 0 ≤ pendingWithdraws s.withdraws d := by
  apply List.sum_nonneg
  intro z hz
  obtain ⟨r, hr, rfl⟩ := List.mem_map.1 hz
  split
  · exact amountOf_nonneg (fun c hc => by simp at hc; subst hc; exact le_of_lt (hw.wds r hr).2.2.1) d
  · exact le_refl _

/-- The global escrow account holds the coins of a pending deposit. -/
theorem deposit_held (hw : WF s) {r : DepReq} (hr : r ∈ s.deposits) (hst : r.status = .notExecuted) (d : Denom) :
    amountOf r.coins d ≤ s.bank.bal .globalEscrow d := by
  have h1 := hw.escrow d
  have h2 := pendingWithdraws_nonneg hw d
  have h3 := sum_single_le (fun r : DepReq => if r.status = .notExecuted then amountOf r.coins d else 0) (l := s.deposits) (x := r)
    (by
      intro y hy
      split
      · exact amountOf_nonneg (fun c hc => le_of_lt ((hw.deps y hy).2.2.1 c hc)) d
      · exact le_refl _) hr
  simp only [hst, if_true] at h3
  unfold pendingDeposits at h1
  omega

/-- The global escrow account holds the coins of a pending withdrawal. -/
theorem withdraw_held (hw : WF s) {r : WdReq} (hr : r ∈ s.withdraws) (hst : r.status = .notExecuted) (d : Denom) :
    amountOf [r.coin] d ≤ s.bank.bal .globalEscrow d := by
  have h1 := hw.escrow d
  have h2 := pendingDeposits_nonneg hw d
  have h3 := sum_single_le (fun r : WdReq => if r.status = .notExecuted then amountOf [r.coin] d else 0) (l := s.withdraws) (x := r)
    (by
      intro y hy
      split
      · exact amountOf_nonneg (fun c hc => by simp at hc; subst hc; exact le_of_lt (hw.wds y hy).2.2.1) d
      · exact le_refl _) hr
  simp only [hst, if_true] at h3
  unfold pendingWithdraws at h1
  omega

/-- Finishing a deposit request succeeds if the accepted coins are at most the offered ones and the rest is in the escrow. -/
theorem finishDeposit_total {r : DepReq} {st : ReqStatus} {t : State} (hst : r.status = .notExecuted) (hpos : ∀ c ∈ r.coins, 0 < c.amt)
    (hnd : (r.coins.map (·.denom)).Nodup) (hacc : ∀ c ∈ r.accepted, 0 ≤ c.amt)
    (hle : ∀ c ∈ r.accepted, amountOf r.accepted c.denom ≤ amountOf r.coins c.denom)
    (hbal : ∀ d, amountOf (coinsSub r.coins r.accepted) d ≤ t.bank.bal .globalEscrow d) : ∃ t', finishDeposit r st t = some t' := by
  have hnn : ∀ c ∈ coinsSub r.coins r.accepted, 0 ≤ c.amt := by
    intro c hc
    unfold coinsSub at hc
    obtain ⟨c0, hc0, rfl⟩ := List.mem_map.1 hc
    show 0 ≤ c0.amt - amountOf r.accepted c0.denom
    have hself : amountOf r.coins c0.denom = c0.amt := by
      have : ∀ (l : Coins), (l.map (·.denom)).Nodup → c0 ∈ l → amountOf l c0.denom = c0.amt := by
        intro l
        induction l with
        | nil => intro _ h; cases h
        | cons c l ih =>
          intro h1 h2
          rw [List.map_cons, List.nodup_cons] at h1
          rw [amountOf_cons]
          rcases List.mem_cons.1 h2 with rfl | h2
          · rw [if_pos rfl, amountOf_of_not_mem (fun c hc e => h1.1 (List.mem_map.2 ⟨c, hc, e⟩))]; omega
          · rw [if_neg (fun e => h1.1 (List.mem_map.2 ⟨c0, h2, e.symm⟩)), ih h1.2 h2]; omega
      exact this _ hnd hc0
    by_cases hm : ∃ c ∈ r.accepted, c.denom = c0.denom
    · obtain ⟨c, h1, h2⟩ := hm
      have := hle c h1
      rw [h2] at this
      omega
    · rw [amountOf_of_not_mem (fun c hc e => hm ⟨c, hc, e⟩)]
      have := hpos c0 hc0
      omega
  unfold finishDeposit
  rw [if_neg (by simp [hst])]
  simp only
  rw [if_neg (by
    simp only [Bool.or_eq_true, List.any_eq_true, decide_eq_true_eq, not_or]
    refine ⟨?_, ?_⟩
    · rintro ⟨c, h1, h2⟩
      have := hnn c h1
      omega
    · rintro ⟨c, h1, h2⟩
      have := hle c h1
      omega)]
  by_cases hz : (coinsSub r.coins r.accepted).all (fun c => c.amt == 0) = true
  · rw [if_pos hz]
    exact ⟨_, rfl⟩
  · rw [if_neg hz]
    obtain ⟨b, hb⟩ := send_isSome (b := t.bank) (src := .globalEscrow) (dst := .user r.depositor) hnn (fun c _ => hbal c.denom)
    rw [hb]
    exact ⟨_, rfl⟩

theorem deposit_ok (hw : WF s) {env : Env} {r : DepReq} (hr : r ∈ s.deposits) (hst : r.status = .notExecuted)
    (hc : ∀ pool ∈ s.pools, pool.id = r.poolId → pool.disabled = false → Computable env pool) : ∃ s', executeDeposit env r s = some s' := by
  obtain ⟨_, ⟨pool, p1, p2, _⟩, hpos, hnd, hacc⟩ := hw.deps r hr
  have hheld := deposit_held hw hr hst
  have hfail : ∀ t : State, t.bank = s.bank → ∃ t', finishDeposit r .failed t = some t' := by
    intro t ht
    refine finishDeposit_total hst hpos hnd (by rw [hacc hst]; simp) (by rw [hacc hst]; simp) ?_
    intro d
    rw [ht, amountOf_sub hnd, hacc hst]
    have := hheld d
    simpa [amountOf] using this
  unfold executeDeposit
  rw [hw.getPool_iff.2 ⟨p1, p2⟩]
  simp only
  by_cases hd : pool.disabled = true
  · rw [if_pos hd]; exact hfail s rfl
  · rw [if_neg hd]
    have hd' : pool.disabled = false := by simpa using hd
    obtain ⟨pair, q1, q2⟩ := (hw.poolIds pool p1).2.2
    rw [hw.getPair_iff.2 ⟨q1, q2⟩]
    simp only
    have hrx : 0 ≤ s.poolRx pool pair := hw.bankNN _ _
    have hry : 0 ≤ s.poolRy pool pair := hw.bankNN _ _
    have hps : 0 < s.poolSupply pool := hw.activeSupply pool p1 hd'
    obtain ⟨ap, hap⟩ := Option.isSome_iff_exists.1 (hc pool p1 p2 hd' (s.poolRx pool pair) (s.poolRy pool pair) (s.poolSupply pool) hrx hry)
    rw [hap]
    simp only
    by_cases hdep : ap.isDepleted = true
    · rw [if_pos hdep]; exact hfail _ rfl
    · rw [if_neg hdep]
      have hne := fun h => hdep ((ammPool_depleted hap).2 h)
      have hx : 0 ≤ amountOf r.coins pair.quote := amountOf_nonneg (fun c hc => le_of_lt (hpos c hc)) _
      have hy : 0 ≤ amountOf r.coins pair.base := amountOf_nonneg (fun c hc => le_of_lt (hpos c hc)) _
      have hres : 0 < s.poolRx pool pair ∨ 0 < s.poolRy pool pair := by
        by_contra hcon
        rw [not_or] at hcon
        apply hne
        unfold PoolEmpty
        have e1 : s.poolRx pool pair = 0 := by omega
        have e2 : s.poolRy pool pair = 0 := by omega
        rw [e1, e2]
        simp
      obtain ⟨ax, ay, pc, h1, h2, h3, h4, h5, h6, h7⟩ := Verif.Props.C07_deposit_at_most_offered
        (env.depositOverflow (s.poolRx pool pair) (s.poolRy pool pair) (s.poolSupply pool) (amountOf r.coins pair.quote)
          (amountOf r.coins pair.base)) (s.poolRx pool pair) (s.poolRy pool pair) (s.poolSupply pool) (amountOf r.coins pair.quote)
          (amountOf r.coins pair.base) hrx hry hres hps hx hy
      rw [h1]
      simp only
      by_cases hpc : pc = 0
      · rw [if_pos hpc]; exact hfail s rfl
      · rw [if_neg hpc]
        have hpne := (hw.pairNe pair q1).1
        obtain ⟨b1, hb1⟩ : ∃ b1, s.bank.mint ⟨.pool pool.id, pc⟩ = some b1 := by
          unfold Bank.mint
          rw [if_pos (by simpa using h6)]
          exact ⟨_, rfl⟩
        rw [hb1]
        simp only
        obtain ⟨m1, m2, m3⟩ := mint_some hb1
        have hacoins : ∀ c ∈ ([⟨pair.quote, ax⟩, ⟨pair.base, ay⟩] : Coins), 0 ≤ c.amt := by
          intro c hc
          simp at hc
          rcases hc with rfl | rfl <;> simpa
        have hale : ∀ d, amountOf [⟨pair.quote, ax⟩, ⟨pair.base, ay⟩] d ≤ amountOf r.coins d := by
          intro d
          simp only [amountOf_cons]
          have h0 : 0 ≤ amountOf r.coins d := amountOf_nonneg (fun c hc => le_of_lt (hpos c hc)) _
          by_cases e1 : pair.quote = d
          · have e2 : ¬ pair.base = d := fun e => hpne (e.trans e1.symm)
            rw [if_pos e1, if_neg e2, ← e1]; simp [amountOf]; exact h3
          · by_cases e2 : pair.base = d
            · rw [if_neg e1, if_pos e2, ← e2]; simp [amountOf]; exact h5
            · rw [if_neg e1, if_neg e2]; simpa [amountOf] using h0
        obtain ⟨b2, hb2⟩ := sendAll_isSome (ts := (BulkOp.queue [] .globalEscrow (.poolReserve pool.id)
            [⟨pair.quote, ax⟩, ⟨pair.base, ay⟩]).queue .dexModule (.user r.depositor) [⟨.pool pool.id, pc⟩]) (b := b1)
          (queue_coins_nonneg (queue_coins_nonneg (by simp) hacoins) (by simpa using h6)) (by
            rintro a d ⟨t, ht, rfl⟩
            rw [queue_outflow, queue_outflow]
            rcases mem_queue ht with ⟨e1, _⟩ | ht
            · rw [e1]
              have := hw.bankNN .dexModule d
              rw [m2]
              simp [outflow, amountOf_cons]
              by_cases e : Denom.pool pool.id = d
              · rw [if_pos e, if_pos e.symm]; simp [amountOf]; exact this
              · rw [if_neg e, if_neg (Ne.symm e)]; simp [amountOf]; exact this
            · rcases mem_queue ht with ⟨e1, _⟩ | ht
              · rw [e1, m2]
                simp only [outflow, List.map_nil, List.sum_nil, reduceCtorEq, if_false, if_true, false_and]
                have := hale d
                have := hheld d
                omega
              · cases ht)
        rw [run_eq_sendAll, hb2]
        simp only
        have hbal2 := (sendAll_some hb2).2.1
        refine finishDeposit_total hst hpos hnd hacoins (fun c _ => hale c.denom) ?_
        intro d
        show _ ≤ b2.bal .globalEscrow d
        rw [hbal2, queue_effect, queue_effect, m2]
        have ht := refund_total hnd hacoins (fun c _ => hale c.denom) d
        have hh := hheld d
        simp [totalEffect, transferEffect]
        omega

theorem finishWithdraw_total {r : WdReq} {st : ReqStatus} {t : State} (hst : r.status = .notExecuted) (hpos : 0 < r.coin.amt)
    (hbal : st = .failed → r.coin.amt ≤ t.bank.bal .globalEscrow r.coin.denom) : ∃ t', finishWithdraw r st t = some t' := by
  unfold finishWithdraw
  rw [if_neg (by simp [hst])]
  by_cases hf : st = .failed
  · rw [if_pos hf]
    obtain ⟨b, hb⟩ := send_isSome (b := t.bank) (src := .globalEscrow) (dst := .user r.withdrawer) (cs := [r.coin])
      (by intro c hc; simp at hc; subst hc; omega)
      (by intro c hc; simp at hc; subst hc; simpa [amountOf] using hbal hf)
    rw [hb]
    exact ⟨_, rfl⟩
  · rw [if_neg hf]
    exact ⟨_, rfl⟩

theorem withdraw_ok (hw : WF s) {env : Env} {r : WdReq} (hr : r ∈ s.withdraws) (hst : r.status = .notExecuted)
    (hfee : 0 ≤ s.params.withdrawFeeRate ∧ s.params.withdrawFeeRate ≤ Dec.one)
    (hc : ∀ pool ∈ s.pools, pool.id = r.poolId → pool.disabled = false → Computable env pool) : ∃ s', executeWithdraw env r s = some s' := by
  obtain ⟨_, ⟨pool, p1, p2, _⟩, hpos, hden⟩ := hw.wds r hr
  have hheld : r.coin.amt ≤ s.bank.bal .globalEscrow r.coin.denom := by
    simpa [amountOf] using withdraw_held hw hr hst r.coin.denom
  have hfail : ∀ t : State, t.bank = s.bank → ∃ t', finishWithdraw r .failed t = some t' := by
    intro t ht
    exact finishWithdraw_total hst hpos (fun _ => by rw [ht]; exact hheld)
  unfold executeWithdraw
  rw [hw.getPool_iff.2 ⟨p1, p2⟩]
  simp only
  by_cases hd : pool.disabled = true
  · rw [if_pos hd]; exact hfail s rfl
  · rw [if_neg hd]
    have hd' : pool.disabled = false := by simpa using hd
    obtain ⟨pair, q1, q2⟩ := (hw.poolIds pool p1).2.2
    rw [hw.getPair_iff.2 ⟨q1, q2⟩]
    simp only
    have hrx : 0 ≤ s.poolRx pool pair := hw.bankNN _ _
    have hry : 0 ≤ s.poolRy pool pair := hw.bankNN _ _
    have hps : 0 < s.poolSupply pool := hw.activeSupply pool p1 hd'
    obtain ⟨ap, hap⟩ := Option.isSome_iff_exists.1 (hc pool p1 p2 hd' (s.poolRx pool pair) (s.poolRy pool pair) (s.poolSupply pool) hrx hry)
    rw [hap]
    simp only
    by_cases hdep : ap.isDepleted = true
    · rw [if_pos hdep]; exact hfail _ rfl
    · rw [if_neg hdep]
      have hle : r.coin.amt ≤ s.poolSupply pool := by
        have h1 := bal_le_supply hw.bankNN hw.bankSum .globalEscrow r.coin.denom
        have h2 : s.bank.supply r.coin.denom = s.poolSupply pool := by rw [hden, ← p2]; rfl
        omega
      obtain ⟨x, y, h1, h2, h3, h4, h5, _⟩ := Verif.Props.C09_withdraw_at_most_share
        (env.withdrawOverflow (s.poolRx pool pair) (s.poolRy pool pair) (s.poolSupply pool) r.coin.amt s.params.withdrawFeeRate)
        (s.poolRx pool pair) (s.poolRy pool pair) (s.poolSupply pool) r.coin.amt s.params.withdrawFeeRate hrx hry hps
        (le_of_lt hpos) hle hfee.1 hfee.2
      rw [h1]
      simp only
      by_cases hz : x = 0 ∧ y = 0
      · rw [if_pos hz]; exact hfail s rfl
      · rw [if_neg hz]
        have hpne := (hw.pairNe pair q1).1
        have hcoins : ∀ c ∈ ([⟨pair.quote, x⟩, ⟨pair.base, y⟩] : Coins), 0 ≤ c.amt := by
          intro c hc
          simp at hc
          rcases hc with rfl | rfl <;> simpa
        obtain ⟨b1, hb1⟩ := sendAll_isSome (ts := (BulkOp.queue [] .globalEscrow .dexModule [r.coin]).queue (.poolReserve pool.id)
            (.user r.withdrawer) [⟨pair.quote, x⟩, ⟨pair.base, y⟩]) (b := s.bank)
          (queue_coins_nonneg (queue_coins_nonneg (by simp) (by intro c hc; simp at hc; subst hc; omega)) hcoins) (by
            rintro a d ⟨t, ht, rfl⟩
            rw [queue_outflow, queue_outflow]
            rcases mem_queue ht with ⟨e1, _⟩ | ht
            · rw [e1]
              simp only [outflow, List.map_nil, List.sum_nil, reduceCtorEq, if_false, if_true, zero_add]
              have h0 := hw.bankNN (.poolReserve pool.id) d
              simp only [amountOf_cons]
              by_cases e1 : pair.quote = d
              · have e2 : ¬ pair.base = d := fun e => hpne (e.trans e1.symm)
                rw [if_pos e1, if_neg e2, ← e1]; simp [amountOf]; exact h3
              · by_cases e2 : pair.base = d
                · rw [if_neg e1, if_pos e2, ← e2]; simp [amountOf]; exact h5
                · rw [if_neg e1, if_neg e2]; simpa [amountOf] using h0
            · rcases mem_queue ht with ⟨e1, _⟩ | ht
              · rw [e1]
                simp only [outflow, List.map_nil, List.sum_nil, reduceCtorEq, if_false, if_true, zero_add, add_zero]
                exact withdraw_held hw hr hst d
              · cases ht)
        rw [run_eq_sendAll, hb1]
        simp only
        have hbal := (sendAll_some hb1).2.1
        obtain ⟨b2, hb2⟩ : ∃ b2, b1.burn r.coin = some b2 := by
          unfold Bank.burn
          rw [if_pos]
          · exact ⟨_, rfl⟩
          · refine ⟨le_of_lt hpos, ?_⟩
            rw [hbal, queue_effect, queue_effect]
            have := hw.bankNN .dexModule r.coin.denom
            simp [totalEffect, transferEffect, amountOf]
            exact this
        rw [hb2]
        simp only
        exact finishWithdraw_total (r := { r with withdrawn := [⟨pair.quote, x⟩, ⟨pair.base, y⟩] }) hst hpos (fun h => by cases h)

end Verif.Dex

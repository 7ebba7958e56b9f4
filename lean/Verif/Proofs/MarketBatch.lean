import Verif.Proofs.MarketMatch
/-!
# One market among others: the batch
-/
namespace Verif.Dex
open Verif Verif.Amm Verif.Spec

variable {q : Nat} {Q : Nat → Bool} {s t s' t' : State}

/-! ## Expiry -/

theorem expireOrder_form {o : OrderRec} (e : expireOrder o s = some s') :
    (((o.status.isMatchable && o.expiredAt s.time) = true ∨ isTooSmallOrderAmount o.openAmt o.price = true) ∧ finishOrder o .expired s = some s') ∨
    (¬((o.status.isMatchable && o.expiredAt s.time) = true ∨ isTooSmallOrderAmount o.openAmt o.price = true) ∧ s' = s) := by
  unfold expireOrder at e
  split at e
  · rename_i c; exact Or.inl ⟨Or.inl c, e⟩
  · rename_i c
    split at e
    · rename_i c2; exact Or.inl ⟨Or.inr c2, e⟩
    · rename_i c2; exact Or.inr ⟨fun h => h.elim c c2, (Option.some.inj e).symm⟩

theorem expireOrder_tidy {o : OrderRec} (hs : Tidy q Q s) (e : expireOrder o s = some s') : Tidy q Q s' := by
  rcases expireOrder_form e with ⟨-, e⟩ | ⟨-, rfl⟩
  · exact finishOrder_tidy hs e
  · exact hs

theorem expireOrder_slice {o : OrderRec} (hs : Tidy q Q s) (ht : Tidy q Q t) (h : Slice q Q s t) (e1 : expireOrder o s = some s')
    (e2 : expireOrder o t = some t') : Slice q Q s' t' := by
  rcases expireOrder_form e1 with ⟨c, e1⟩ | ⟨c, rfl⟩ <;> rcases expireOrder_form e2 with ⟨c', e2⟩ | ⟨c', rfl⟩
  · exact finishOrder_slice hs ht h e1 e2
  · rw [h.time] at c; exact absurd c c'
  · rw [h.time] at c; exact absurd c' c
  · exact h

theorem expireOrder_other {o : OrderRec} (ho : o.pairId ≠ q) (hs : Tidy q Q s) (e : expireOrder o s = some s') : Slice q Q s s' := by
  rcases expireOrder_form e with ⟨-, e⟩ | ⟨-, rfl⟩
  · exact finishOrder_other ho hs e
  · exact Slice.refl _

/-! ## Requests -/

theorem finishDeposit_form {r : DepReq} {st : ReqStatus} (e : finishDeposit r st s = some s') :
    (r.status ≠ .notExecuted ∧ s' = s) ∨ (r.status = .notExecuted ∧ ∃ b, BankEq Q s.bank b ∧
      s' = ({ s with bank := b }.setDeposit { r with status := st })) := by
  unfold finishDeposit at e
  split at e
  · rename_i c; cases e; exact Or.inl ⟨c, rfl⟩
  · rename_i c
    refine Or.inr ⟨by simpa using c, ?_⟩
    simp only at e
    split at e
    · cases e
    · split at e
      · cases e
      · rename_i b hb
        cases e
        refine ⟨b, ?_, rfl⟩
        split at hb
        · cases hb; exact BankEq.refl _
        · exact bankEq_send_other hb (fun _ _ => by simp) (fun _ _ => by simp)

theorem finishDeposit_tidy {r : DepReq} {st : ReqStatus} (hs : Tidy q Q s) (e : finishDeposit r st s = some s') : Tidy q Q s' := by
  rcases finishDeposit_form (Q := Q) e with ⟨-, rfl⟩ | ⟨-, b, -, rfl⟩
  · exact hs
  · exact (hs.bank b).setDeposit _

theorem finishDeposit_slice {r : DepReq} {st : ReqStatus} (hs : Tidy q Q s) (ht : Tidy q Q t) (h : Slice q Q s t)
    (e1 : finishDeposit r st s = some s') (e2 : finishDeposit r st t = some t') : Slice q Q s' t' := by
  rcases finishDeposit_form (Q := Q) e1 with ⟨c, rfl⟩ | ⟨c, b, hb, rfl⟩ <;> rcases finishDeposit_form (Q := Q) e2 with ⟨c', rfl⟩ | ⟨c', b', hb', rfl⟩
  · exact h
  · exact absurd c' c
  · exact absurd c c'
  · exact (h.bank (hb.symm.trans (h.bankEq.trans hb'))).setDeposit (hs.bank b) (ht.bank b') _

theorem finishDeposit_other {r : DepReq} {st : ReqStatus} (hr : Q r.poolId = false) (hs : Tidy q Q s)
    (e : finishDeposit r st s = some s') : Slice q Q s s' := by
  rcases finishDeposit_form (Q := Q) e with ⟨-, rfl⟩ | ⟨-, b, hb, rfl⟩
  · exact Slice.refl _
  · exact (Slice.bank_other hb).trans (Slice.setDeposit_other (hs.bank b) (r := { r with status := st }) hr)

theorem finishWithdraw_form {r : WdReq} {st : ReqStatus} (e : finishWithdraw r st s = some s') :
    (r.status ≠ .notExecuted ∧ s' = s) ∨ (r.status = .notExecuted ∧ ∃ b, BankEq Q s.bank b ∧
      s' = ({ s with bank := b }.setWithdraw { r with status := st })) := by
  unfold finishWithdraw at e
  split at e
  · rename_i c; cases e; exact Or.inl ⟨c, rfl⟩
  · rename_i c
    refine Or.inr ⟨by simpa using c, ?_⟩
    split at e
    · cases e
    · rename_i b hb
      cases e
      refine ⟨b, ?_, rfl⟩
      split at hb
      · exact bankEq_send_other hb (fun _ _ => by simp) (fun _ _ => by simp)
      · cases hb; exact BankEq.refl _

theorem finishWithdraw_tidy {r : WdReq} {st : ReqStatus} (hr : r.coin.denom = .pool r.poolId) (hs : Tidy q Q s)
    (e : finishWithdraw r st s = some s') : Tidy q Q s' := by
  rcases finishWithdraw_form (Q := Q) e with ⟨-, rfl⟩ | ⟨-, b, -, rfl⟩
  · exact hs
  · exact (hs.bank b).setWithdraw hr

theorem finishWithdraw_slice {r : WdReq} {st : ReqStatus} (hs : Tidy q Q s) (ht : Tidy q Q t) (h : Slice q Q s t)
    (e1 : finishWithdraw r st s = some s') (e2 : finishWithdraw r st t = some t') : Slice q Q s' t' := by
  rcases finishWithdraw_form (Q := Q) e1 with ⟨c, rfl⟩ | ⟨c, b, hb, rfl⟩ <;> rcases finishWithdraw_form (Q := Q) e2 with ⟨c', rfl⟩ | ⟨c', b', hb', rfl⟩
  · exact h
  · exact absurd c' c
  · exact absurd c c'
  · exact (h.bank (hb.symm.trans (h.bankEq.trans hb'))).setWithdraw (hs.bank b) (ht.bank b') _

theorem finishWithdraw_other {r : WdReq} {st : ReqStatus} (hr : Q r.poolId = false) (hs : Tidy q Q s)
    (e : finishWithdraw r st s = some s') : Slice q Q s s' := by
  rcases finishWithdraw_form (Q := Q) e with ⟨-, rfl⟩ | ⟨-, b, hb, rfl⟩
  · exact Slice.refl _
  · exact (Slice.bank_other hb).trans (Slice.setWithdraw_other (hs.bank b) (r := { r with status := st }) hr)

theorem Slice.getPool (hs : Tidy q Q s) (ht : Tidy q Q t) (h : Slice q Q s t) {id : Nat} (hQ : Q id = true) :
    s.getPool id = t.getPool id := by
  unfold State.getPool
  have hk : ∀ {u : State}, Tidy q Q u → ∀ x ∈ u.pools, x.key = (id, 0) → (x.pairId == q) = true := fun hu x hx e => by
    rw [beq_iff_eq]
    exact (hu.mine x hx).1 (by rw [(Prod.mk.inj e).1]; exact hQ)
  rw [lookup_slice (hk hs), lookup_slice (l := t.pools) (hk ht), h.pools]

theorem Slice.getPair (h : Slice q Q s t) : s.getPair q = t.getPair q := by
  unfold State.getPair
  have hk : ∀ l : List Pair, ∀ x ∈ l, x.key = (q, 0) → (x.id == q) = true := fun l x _ e => by
    rw [(Prod.mk.inj e).1]; exact beq_self_eq_true q
  rw [lookup_slice (hk _), lookup_slice (l := t.pairs) (hk _), h.pairs]

/-- What executing a deposit request does. -/
theorem executeDeposit_form {env : Env} {r : DepReq} (e : executeDeposit env r s = some s') :
    ∃ pool, s.getPool r.poolId = some pool ∧
      ((pool.disabled = true ∧ finishDeposit r .failed s = some s') ∨
       (pool.disabled = false ∧ ∃ pair, s.getPair pool.pairId = some pair ∧ ∃ ap,
          ammPool env pool (s.poolRx pool pair) (s.poolRy pool pair) (s.poolSupply pool) = some ap ∧
          ((ap.isDepleted = true ∧ finishDeposit r .failed (s.markDisabled pool) = some s') ∨
           (ap.isDepleted = false ∧ ∃ ax ay pc,
              deposit (env.depositOverflow (s.poolRx pool pair) (s.poolRy pool pair) (s.poolSupply pool) (amountOf r.coins pair.quote)
                (amountOf r.coins pair.base)) (s.poolRx pool pair) (s.poolRy pool pair) (s.poolSupply pool) (amountOf r.coins pair.quote)
                (amountOf r.coins pair.base) = some (ax, ay, pc) ∧
              ((pc = 0 ∧ finishDeposit r .failed s = some s') ∨
               (pc ≠ 0 ∧ ∃ b1 b2, s.bank.mint ⟨.pool pool.id, pc⟩ = some b1 ∧
                  BulkOp.run ((BulkOp.queue [] .globalEscrow (.poolReserve pool.id) [⟨pair.quote, ax⟩, ⟨pair.base, ay⟩]).queue .dexModule
                    (.user r.depositor) [⟨.pool pool.id, pc⟩]) b1 = some b2 ∧
                  finishDeposit { r with accepted := [⟨pair.quote, ax⟩, ⟨pair.base, ay⟩], minted := pc } .succeeded { s with bank := b2 } = some s')))))) := by
  unfold executeDeposit at e
  split at e
  · cases e
  · rename_i pool hp
    refine ⟨pool, hp, ?_⟩
    split at e
    · rename_i c; exact Or.inl ⟨c, e⟩
    · rename_i c
      refine Or.inr ⟨by simpa using c, ?_⟩
      split at e
      · cases e
      · rename_i pair hpair
        refine ⟨pair, hpair, ?_⟩
        simp only at e
        split at e
        · cases e
        · rename_i ap hap
          refine ⟨ap, hap, ?_⟩
          split at e
          · rename_i c2; exact Or.inl ⟨c2, e⟩
          · rename_i c2
            refine Or.inr ⟨by simpa using c2, ?_⟩
            split at e
            · cases e
            · rename_i ax ay pc hd
              refine ⟨ax, ay, pc, hd, ?_⟩
              split at e
              · rename_i c3; exact Or.inl ⟨c3, e⟩
              · rename_i c3
                refine Or.inr ⟨c3, ?_⟩
                split at e
                · cases e
                · rename_i b1 hb1
                  split at e
                  · cases e
                  · rename_i b2 hb2
                    exact ⟨b1, b2, hb1, hb2, e⟩

theorem bankEq_mint {b c b' c' : Bank} {m : Coin} (h : BankEq Q b c) (hb : b.mint m = some b') (hc : c.mint m = some c') : BankEq Q b' c' := by
  obtain ⟨-, f1, e1⟩ := mint_some hb
  obtain ⟨-, f2, e2⟩ := mint_some hc
  exact ⟨fun i hi d => by rw [f1, f2, h.1 i hi d], fun i hi => by rw [e1, e2, h.2 i hi]⟩

theorem bankEq_mint_other {b b' : Bank} {id : Nat} {a : Int} (hid : Q id = false) (hb : b.mint ⟨.pool id, a⟩ = some b') : BankEq Q b b' := by
  obtain ⟨-, f1, e1⟩ := mint_some hb
  refine ⟨fun i hi d => by rw [f1, if_neg (by rintro ⟨c, -⟩; cases c)]; omega, fun i hi => ?_⟩
  rw [e1, if_neg (fun c => ?_)]
  · omega
  · injection c with c
    rw [c, hid] at hi
    cases hi

theorem bankEq_burn {b c b' c' : Bank} {m : Coin} (h : BankEq Q b c) (hb : b.burn m = some b') (hc : c.burn m = some c') : BankEq Q b' c' := by
  obtain ⟨-, -, f1, e1⟩ := burn_some hb
  obtain ⟨-, -, f2, e2⟩ := burn_some hc
  exact ⟨fun i hi d => by rw [f1, f2, h.1 i hi d], fun i hi => by rw [e1, e2, h.2 i hi]⟩

theorem bankEq_burn_other {b b' : Bank} {m : Coin} {id : Nat} (hm : m.denom = .pool id) (hid : Q id = false) (hb : b.burn m = some b') :
    BankEq Q b b' := by
  obtain ⟨-, -, f1, e1⟩ := burn_some hb
  refine ⟨fun i hi d => by rw [f1, if_neg (by rintro ⟨c, -⟩; cases c)]; omega, fun i hi => ?_⟩
  rw [e1, if_neg (fun c => ?_)]
  · omega
  · rw [hm] at c
    injection c with c
    rw [c, hid] at hi
    cases hi

theorem pool_of_get (hs : Tidy q Q s) {id : Nat} {pool : PoolRec} (h : s.getPool id = some pool) :
    pool.id = id ∧ (Q pool.id = true ↔ pool.pairId = q) := by
  obtain ⟨h1, h2⟩ := lookup_some_mem h
  exact ⟨(Prod.mk.inj h2).1, hs.mine _ h1⟩

theorem executeDeposit_tidy {env : Env} {r : DepReq} (hs : Tidy q Q s) (e : executeDeposit env r s = some s') : Tidy q Q s' := by
  obtain ⟨pool, hp, ⟨-, e⟩ | ⟨-, pair, -, ap, -, ⟨-, e⟩ | ⟨-, ax, ay, pc, -, ⟨-, e⟩ | ⟨-, b1, b2, -, -, e⟩⟩⟩⟩ := executeDeposit_form e
  · exact finishDeposit_tidy hs e
  · exact finishDeposit_tidy (hs.disable (pool_of_get hs hp).2) e
  · exact finishDeposit_tidy hs e
  · exact finishDeposit_tidy (hs.bank b2) e

theorem executeDeposit_slice {env : Env} {r : DepReq} (hr : Q r.poolId = true) (hs : Tidy q Q s) (ht : Tidy q Q t) (h : Slice q Q s t)
    (e1 : executeDeposit env r s = some s') (e2 : executeDeposit env r t = some t') : Slice q Q s' t' := by
  obtain ⟨pool, hp, h1⟩ := executeDeposit_form e1
  obtain ⟨pool', hp', h2⟩ := executeDeposit_form e2
  rw [← h.getPool hs ht hr, hp] at hp'
  cases hp'
  obtain ⟨i1, i2⟩ := pool_of_get hs hp
  have hQ : Q pool.id = true := by rw [i1]; exact hr
  have hpq := i2.1 hQ
  rcases h1 with ⟨c, e1⟩ | ⟨c, pair, g, ap, a, h1⟩ <;> rcases h2 with ⟨c', e2⟩ | ⟨c', pair', g', ap', a', h2⟩
  · exact finishDeposit_slice hs ht h e1 e2
  · rw [c] at c'; cases c'
  · rw [c] at c'; cases c'
  · rw [hpq] at g g'
    rw [← h.getPair, g] at g'
    cases g'
    rw [← h.rx hQ, ← h.ry hQ, ← h.ps hQ] at a' h2
    rw [a] at a'
    cases a'
    rcases h1 with ⟨d, e1⟩ | ⟨d, ax, ay, pc, k, h1⟩ <;> rcases h2 with ⟨d', e2⟩ | ⟨d', ax', ay', pc', k', h2⟩
    · exact finishDeposit_slice (hs.disable i2) (ht.disable i2) (h.disable hs ht i2) e1 e2
    · rw [d] at d'; cases d'
    · rw [d] at d'; cases d'
    · rw [k] at k'
      cases k'
      rcases h1 with ⟨z, e1⟩ | ⟨z, b1, b2, m1, m2, e1⟩ <;> rcases h2 with ⟨z', e2⟩ | ⟨z', c1, c2, n1, n2, e2⟩
      · exact finishDeposit_slice hs ht h e1 e2
      · exact absurd z z'
      · exact absurd z' z
      · exact finishDeposit_slice (hs.bank b2) (ht.bank c2) (h.bank (bankEq_run (bankEq_mint h.bankEq m1 n1) m2 n2)) e1 e2

theorem executeDeposit_other {env : Env} {r : DepReq} (hr : Q r.poolId = false) (hs : Tidy q Q s)
    (e : executeDeposit env r s = some s') : Slice q Q s s' := by
  obtain ⟨pool, hp, h⟩ := executeDeposit_form e
  obtain ⟨i1, i2⟩ := pool_of_get hs hp
  have hQ : Q pool.id = false := by rw [i1]; exact hr
  have hpq : pool.pairId ≠ q := fun c => by rw [i2.2 c] at hQ; cases hQ
  rcases h with ⟨-, e⟩ | ⟨-, pair, -, ap, -, ⟨-, e⟩ | ⟨-, ax, ay, pc, -, ⟨-, e⟩ | ⟨-, b1, b2, m1, m2, e⟩⟩⟩
  · exact finishDeposit_other hr hs e
  · exact (Slice.disable_other hs i2 hpq).trans (finishDeposit_other hr (hs.disable i2) e)
  · exact finishDeposit_other hr hs e
  · have hne : ∀ id, Q id = true → Addr.poolReserve pool.id ≠ .poolReserve id := by
      intro id hi c
      injection c with c
      rw [c, hi] at hQ; cases hQ
    have hb : BankEq Q s.bank b2 := (bankEq_mint_other hQ m1).trans
      (bankEq_run_other ((away_nil.queue (fun _ _ => by simp) hne).queue (fun _ _ => by simp) (fun _ _ => by simp)) m2)
    exact (Slice.bank_other hb).trans (finishDeposit_other (r := { r with accepted := [⟨pair.quote, ax⟩, ⟨pair.base, ay⟩], minted := pc }) hr (hs.bank b2) e)

/-- What executing a withdraw request does. -/
theorem executeWithdraw_form {env : Env} {r : WdReq} (e : executeWithdraw env r s = some s') :
    ∃ pool, s.getPool r.poolId = some pool ∧
      ((pool.disabled = true ∧ finishWithdraw r .failed s = some s') ∨
       (pool.disabled = false ∧ ∃ pair, s.getPair pool.pairId = some pair ∧ ∃ ap,
          ammPool env pool (s.poolRx pool pair) (s.poolRy pool pair) (s.poolSupply pool) = some ap ∧
          ((ap.isDepleted = true ∧ finishWithdraw r .failed (s.markDisabled pool) = some s') ∨
           (ap.isDepleted = false ∧ ∃ x y,
              withdraw (env.withdrawOverflow (s.poolRx pool pair) (s.poolRy pool pair) (s.poolSupply pool) r.coin.amt s.params.withdrawFeeRate)
                (s.poolRx pool pair) (s.poolRy pool pair) (s.poolSupply pool) r.coin.amt s.params.withdrawFeeRate = some (x, y) ∧
              (((x = 0 ∧ y = 0) ∧ finishWithdraw r .failed s = some s') ∨
               (¬(x = 0 ∧ y = 0) ∧ ∃ b1 b2,
                  BulkOp.run ((BulkOp.queue [] .globalEscrow .dexModule [r.coin]).queue (.poolReserve pool.id) (.user r.withdrawer)
                    [⟨pair.quote, x⟩, ⟨pair.base, y⟩]) s.bank = some b1 ∧ b1.burn r.coin = some b2 ∧
                  finishWithdraw { r with withdrawn := [⟨pair.quote, x⟩, ⟨pair.base, y⟩] } .succeeded
                    (if r.coin.amt = s.poolSupply pool then { s with bank := b2 }.markDisabled pool else { s with bank := b2 }) = some s')))))) := by
  unfold executeWithdraw at e
  split at e
  · cases e
  · rename_i pool hp
    refine ⟨pool, hp, ?_⟩
    split at e
    · rename_i c; exact Or.inl ⟨c, e⟩
    · rename_i c
      refine Or.inr ⟨by simpa using c, ?_⟩
      split at e
      · cases e
      · rename_i pair hpair
        refine ⟨pair, hpair, ?_⟩
        simp only at e
        split at e
        · cases e
        · rename_i ap hap
          refine ⟨ap, hap, ?_⟩
          split at e
          · rename_i c2; exact Or.inl ⟨c2, e⟩
          · rename_i c2
            refine Or.inr ⟨by simpa using c2, ?_⟩
            split at e
            · cases e
            · rename_i x y hd
              refine ⟨x, y, hd, ?_⟩
              split at e
              · rename_i c3; exact Or.inl ⟨c3, e⟩
              · rename_i c3
                refine Or.inr ⟨c3, ?_⟩
                split at e
                · cases e
                · rename_i b1 hb1
                  split at e
                  · cases e
                  · rename_i b2 hb2
                    exact ⟨b1, b2, hb1, hb2, e⟩

theorem executeWithdraw_tidy {env : Env} {r : WdReq} (hr : r.coin.denom = .pool r.poolId) (hs : Tidy q Q s)
    (e : executeWithdraw env r s = some s') : Tidy q Q s' := by
  obtain ⟨pool, hp, ⟨-, e⟩ | ⟨-, pair, -, ap, -, ⟨-, e⟩ | ⟨-, x, y, -, ⟨-, e⟩ | ⟨-, b1, b2, -, -, e⟩⟩⟩⟩ := executeWithdraw_form e
  · exact finishWithdraw_tidy hr hs e
  · exact finishWithdraw_tidy hr (hs.disable (pool_of_get hs hp).2) e
  · exact finishWithdraw_tidy hr hs e
  · refine finishWithdraw_tidy (r := { r with withdrawn := [⟨pair.quote, x⟩, ⟨pair.base, y⟩] }) hr ?_ e
    split
    · exact (hs.bank b2).disable (pool_of_get hs hp).2
    · exact hs.bank b2

theorem executeWithdraw_slice {env : Env} {r : WdReq} (hr : Q r.poolId = true) (hs : Tidy q Q s) (ht : Tidy q Q t) (h : Slice q Q s t)
    (e1 : executeWithdraw env r s = some s') (e2 : executeWithdraw env r t = some t') : Slice q Q s' t' := by
  obtain ⟨pool, hp, h1⟩ := executeWithdraw_form e1
  obtain ⟨pool', hp', h2⟩ := executeWithdraw_form e2
  rw [← h.getPool hs ht hr, hp] at hp'
  cases hp'
  obtain ⟨i1, i2⟩ := pool_of_get hs hp
  have hQ : Q pool.id = true := by rw [i1]; exact hr
  have hpq := i2.1 hQ
  rcases h1 with ⟨c, e1⟩ | ⟨c, pair, g, ap, a, h1⟩ <;> rcases h2 with ⟨c', e2⟩ | ⟨c', pair', g', ap', a', h2⟩
  · exact finishWithdraw_slice hs ht h e1 e2
  · rw [c] at c'; cases c'
  · rw [c] at c'; cases c'
  · rw [hpq] at g g'
    rw [← h.getPair, g] at g'
    cases g'
    rw [← h.rx hQ, ← h.ry hQ, ← h.ps hQ] at a' h2
    rw [a] at a'
    cases a'
    rcases h1 with ⟨d, e1⟩ | ⟨d, x, y, k, h1⟩ <;> rcases h2 with ⟨d', e2⟩ | ⟨d', x', y', k', h2⟩
    · exact finishWithdraw_slice (hs.disable i2) (ht.disable i2) (h.disable hs ht i2) e1 e2
    · rw [d] at d'; cases d'
    · rw [d] at d'; cases d'
    · rw [← h.params, k] at k'
      cases k'
      rcases h1 with ⟨z, e1⟩ | ⟨z, b1, b2, m1, m2, e1⟩ <;> rcases h2 with ⟨z', e2⟩ | ⟨z', c1, c2, n1, n2, e2⟩
      · exact finishWithdraw_slice hs ht h e1 e2
      · exact absurd z z'
      · exact absurd z' z
      · have h3 : Slice q Q { s with bank := b2 } { t with bank := c2 } := h.bank (bankEq_burn (bankEq_run h.bankEq m1 n1) m2 n2)
        by_cases w : r.coin.amt = s.poolSupply pool
        · rw [if_pos w] at e1 e2
          exact finishWithdraw_slice ((hs.bank b2).disable i2) ((ht.bank c2).disable i2) (h3.disable (hs.bank b2) (ht.bank c2) i2) e1 e2
        · rw [if_neg w] at e1 e2
          exact finishWithdraw_slice (hs.bank b2) (ht.bank c2) h3 e1 e2

theorem executeWithdraw_other {env : Env} {r : WdReq} (hd : r.coin.denom = .pool r.poolId) (hr : Q r.poolId = false) (hs : Tidy q Q s)
    (e : executeWithdraw env r s = some s') : Slice q Q s s' := by
  obtain ⟨pool, hp, h⟩ := executeWithdraw_form e
  obtain ⟨i1, i2⟩ := pool_of_get hs hp
  have hQ : Q pool.id = false := by rw [i1]; exact hr
  have hpq : pool.pairId ≠ q := fun c => by rw [i2.2 c] at hQ; cases hQ
  rcases h with ⟨-, e⟩ | ⟨-, pair, -, ap, -, ⟨-, e⟩ | ⟨-, x, y, -, ⟨-, e⟩ | ⟨-, b1, b2, m1, m2, e⟩⟩⟩
  · exact finishWithdraw_other hr hs e
  · exact (Slice.disable_other hs i2 hpq).trans (finishWithdraw_other hr (hs.disable i2) e)
  · exact finishWithdraw_other hr hs e
  · have hne : ∀ id, Q id = true → Addr.poolReserve pool.id ≠ .poolReserve id := by
      intro id hi c
      injection c with c
      rw [c, hi] at hQ; cases hQ
    have hb : BankEq Q s.bank b2 := (bankEq_run_other ((away_nil.queue (fun _ _ => by simp) (fun _ _ => by simp)).queue hne
      (fun _ _ => by simp)) m1).trans (bankEq_burn_other hd hr m2)
    by_cases w : r.coin.amt = s.poolSupply pool
    · rw [if_pos w] at e
      exact ((Slice.bank_other hb).trans (Slice.disable_other (hs.bank b2) i2 hpq)).trans
        (finishWithdraw_other (r := { r with withdrawn := [⟨pair.quote, x⟩, ⟨pair.base, y⟩] }) hr ((hs.bank b2).disable i2) e)
    · rw [if_neg w] at e
      exact (Slice.bank_other hb).trans (finishWithdraw_other (r := { r with withdrawn := [⟨pair.quote, x⟩, ⟨pair.base, y⟩] }) hr (hs.bank b2) e)

/-! ## The batch -/

theorem executeRequests_slice {env : Env} (hs : Tidy q Q s) (ht : Tidy q Q t) (h : Slice q Q s t)
    (e1 : executeRequests env s = some s') (e2 : executeRequests env t = some t') : Slice q Q s' t' ∧ Tidy q Q s' ∧ Tidy q Q t' := by
  unfold executeRequests at e1 e2
  split at e1
  · cases e1
  rename_i s1 a1
  split at e1
  · cases e1
  rename_i s2 a2
  split at e1
  · cases e1
  rename_i s3 a3
  split at e2
  · cases e2
  rename_i t1 b1
  split at e2
  · cases e2
  rename_i t2 b2
  split at e2
  · cases e2
  rename_i t3 b3
  obtain ⟨h1, hs1, ht1⟩ := slice_forEach (q := q) (Q := Q) (P := fun (p : Pair) => p.id == q) (f := executeMatching env) (ok := fun _ => True)
    (fun x s s' _ hs e => executeMatching_tidy hs e) (fun x s s' _ hx hs e => executeMatching_other (by simpa using hx) hs e)
    (fun x s s' t t' _ hx hs ht h e e' => executeMatching_slice (by simpa using hx) hs ht h e e') s.pairs t.pairs s s1 t t1
    (fun _ _ => trivial) (fun _ _ => trivial) h.pairs hs ht h a1 b1
  obtain ⟨h2, hs2, ht2⟩ := slice_forEach (q := q) (Q := Q) (P := fun (o : OrderRec) => o.pairId == q) (f := expireOrder) (ok := fun _ => True)
    (fun x s s' _ hs e => expireOrder_tidy hs e) (fun x s s' _ hx hs e => expireOrder_other (by simpa using hx) hs e)
    (fun x s s' t t' _ _ hs ht h e e' => expireOrder_slice hs ht h e e') s1.orders t1.orders s1 s2 t1 t2
    (fun _ _ => trivial) (fun _ _ => trivial) h1.orders hs1 ht1 h1 a2 b2
  obtain ⟨h3, hs3, ht3⟩ := slice_forEach (q := q) (Q := Q) (P := fun (r : DepReq) => Q r.poolId) (f := depositPass env) (ok := fun _ => True)
    (fun x s s' _ hs e => by
      unfold depositPass at e
      split at e
      · exact executeDeposit_tidy hs e
      · cases e; exact hs)
    (fun x s s' _ hx hs e => by
      unfold depositPass at e
      split at e
      · exact executeDeposit_other hx hs e
      · cases e; exact Slice.refl _)
    (fun x s s' t t' _ hx hs ht h e e' => by
      unfold depositPass at e e'
      by_cases c : x.status = .notExecuted
      · rw [if_pos c] at e e'; exact executeDeposit_slice hx hs ht h e e'
      · rw [if_neg c] at e e'; cases e; cases e'; exact h) s2.deposits t2.deposits s2 s3 t2 t3
    (fun _ _ => trivial) (fun _ _ => trivial) h2.deposits hs2 ht2 h2 a3 b3
  exact slice_forEach (q := q) (Q := Q) (P := fun (r : WdReq) => Q r.poolId) (f := withdrawPass env) (ok := fun r => r.coin.denom = .pool r.poolId)
    (fun x s s' hx hs e => by
      unfold withdrawPass at e
      split at e
      · exact executeWithdraw_tidy hx hs e
      · cases e; exact hs)
    (fun x s s' hd hx hs e => by
      unfold withdrawPass at e
      split at e
      · exact executeWithdraw_other hd hx hs e
      · cases e; exact Slice.refl _)
    (fun x s s' t t' _ hx hs ht h e e' => by
      unfold withdrawPass at e e'
      by_cases c : x.status = .notExecuted
      · rw [if_pos c] at e e'; exact executeWithdraw_slice hx hs ht h e e'
      · rw [if_neg c] at e e'; cases e; cases e'; exact h) s3.withdraws t3.withdraws s3 s' t3 t'
    hs3.coin ht3.coin h3.withdraws hs3 ht3 h3 e1 e2

theorem endBlock_slice {env : Env} (hs : Tidy q Q s) (ht : Tidy q Q t) (h : Slice q Q s t)
    (e1 : endBlock env s = some s') (e2 : endBlock env t = some t') : Slice q Q s' t' := by
  unfold endBlock at e1 e2
  rw [← h.params, ← h.height] at e2
  split at e1
  · cases e1
  · rename_i c
    rw [if_neg c] at e2
    split at e1
    · rename_i c2
      rw [if_pos c2] at e2
      exact (executeRequests_slice hs ht h e1 e2).1
    · rename_i c2
      rw [if_neg c2] at e2
      cases e1; cases e2; exact h

theorem beginBlock_slice {height : Nat} {time : Int} (h : Slice q Q s t) : Slice q Q (beginBlock height time s) (beginBlock height time t) := by
  have hf : ∀ {β : Type} (P R : β → Bool) (l m : List β), l.filter P = m.filter P → (l.filter R).filter P = (m.filter R).filter P := by
    intro β P R l m e
    have hc : ∀ l : List β, (l.filter R).filter P = (l.filter P).filter R := fun l => by
      rw [List.filter_filter, List.filter_filter]
      exact List.filter_congr fun x _ => Bool.and_comm _ _
    rw [hc, hc, e]
  exact { h with
    height := rfl
    time := rfl
    orders := hf _ _ _ _ h.orders
    deposits := hf _ _ _ _ h.deposits
    withdraws := hf _ _ _ _ h.withdraws }

end Verif.Dex

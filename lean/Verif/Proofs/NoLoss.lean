import Verif.Proofs.LedgerSteps
/-! # An account's balances are lowered only by its own messages -/
namespace Verif.Dex
open Verif Verif.Amm Verif.Spec

variable {s s' : State} {u : Nat}

/-- No balance of the account `u` is lower. -/
def Gains (u : Nat) (b b' : Bank) : Prop := ∀ d, b.bal (.user u) d ≤ b'.bal (.user u) d

theorem Gains.refl (b : Bank) : Gains u b b := fun _ => le_refl _
theorem Gains.trans {a b c : Bank} (h : Gains u a b) (h' : Gains u b c) : Gains u a c := fun d => le_trans (h d) (h' d)

theorem gains_send {b b' : Bank} {src dst : Addr} {cs : Coins} (hne : src ≠ .user u) (h : b.send src dst cs = some b') : Gains u b b' :=
  fun d => send_mono h (fun e => hne e.symm) d

theorem gains_run {op : BulkOp} {b b' : Bank} (hne : ∀ t ∈ op, t.src ≠ .user u) (h : op.run b = some b') : Gains u b b' :=
  fun d => run_mono h hne d

theorem gains_mint {b b' : Bank} {c : Coin} (h : b.mint c = some b') : Gains u b b' := by
  intro d
  rw [(mint_some h).2.1]; simp

theorem gains_burn {b b' : Bank} {c : Coin} (h : b.burn c = some b') : Gains u b b' := by
  intro d
  unfold Bank.burn at h
  split at h
  · cases h; simp
  · cases h

/-- A relation between banks that transfers by the module's accounts respect. -/
structure SendRel (R : Bank → Bank → Prop) : Prop where
  refl : ∀ b, R b b
  trans : ∀ {a b c}, R a b → R b c → R a c
  send : ∀ {b b' : Bank} {src dst : Addr} {cs : Coins}, (∀ u, src ≠ .user u) → b.send src dst cs = some b' → R b b'

variable {R : Bank → Bank → Prop}

theorem SendRel.run (hR : SendRel R) : ∀ {op : BulkOp} {b b' : Bank}, (∀ t ∈ op, ∀ u, t.src ≠ .user u) → op.run b = some b' → R b b' := by
  intro op
  induction op with
  | nil => intro b b' _ h; cases h; exact hR.refl _
  | cons t ts ih =>
    intro b b' hs h
    simp only [BulkOp.run, Option.bind_eq_some_iff] at h
    obtain ⟨b1, h1, h2⟩ := h
    exact hR.trans (hR.send (hs t (by simp)) h1) (ih (fun x hx => hs x (by simp [hx])) h2)

theorem rel_forEach (hR : SendRel R) {α σ : Type} (g : σ → Bank) {f : α → σ → Option σ} (hf : ∀ x s s', f x s = some s' → R (g s) (g s')) :
    ∀ {l : List α} {s s' : σ}, forEach f l s = some s' → R (g s) (g s') := by
  intro l
  induction l with
  | nil => intro s s' h; cases h; exact hR.refl _
  | cons x l ih =>
    intro s s' h
    rw [forEach, Option.bind_eq_some_iff] at h
    obtain ⟨t, h1, h2⟩ := h
    exact hR.trans (hf x s t h1) (ih h2)

theorem rel_finishOrder (hR : SendRel R) {o : OrderRec} {st : OStatus} (h : finishOrder o st s = some s') : R s.bank s'.bank := by
  unfold finishOrder at h
  split at h
  · cases h; exact hR.refl _
  · split at h
    · cases h
    · rename_i b hb
      have hg : R s.bank b := by
        split at hb
        · rw [Option.bind_eq_some_iff] at hb
          obtain ⟨p, _, hb⟩ := hb
          exact hR.send (by simp) hb
        · cases hb; exact hR.refl _
      simp only at h
      split at h <;> (cases h; exact hg)

theorem rel_collectOrder (hR : SendRel R) {o : OrderRec} {st st' : State × List Order} (h : collectOrder o st = some st') :
    R st.1.bank st'.1.bank := by
  unfold collectOrder at h
  split at h
  · split at h
    · rw [Option.map_eq_some_iff] at h
      obtain ⟨t, h1, rfl⟩ := h
      exact rel_finishOrder hR h1
    · cases h
      simp only
      split <;> exact hR.refl _
  · cases h; exact hR.refl _

theorem rel_collectPool (hR : SendRel R) {env : Env} {pair : Pair} {p : PoolRec} {st st' : State × List (Nat × Pool)}
    (h : collectPool env pair p st = some st') : R st.1.bank st'.1.bank := by
  unfold collectPool at h
  split at h
  · cases h; exact hR.refl _
  · split at h
    · cases h
    · split at h <;> (cases h; exact hR.refl _)

theorem rel_applyOrder (hR : SendRel R) {pair : Pair} {o : Order} {st st' : ApplyState} (h : applyOrder pair o st = some st')
    (hs : ∀ t ∈ st.op, (∀ u, t.src ≠ .user u)) : R st.s.bank st'.s.bank ∧ ∀ t ∈ st'.op, (∀ u, t.src ≠ .user u) := by
  unfold applyOrder at h
  split at h
  · cases h; exact ⟨hR.refl _, hs⟩
  · simp only at h
    split at h
    · split at h
      · cases h
      · split at h
        · cases h
        · split at h
          · cases h
          · rename_i t ht
            cases h
            refine ⟨?_, ?_⟩
            · split at ht
              · exact rel_finishOrder hR ht
              · cases ht; exact hR.refl _
            · intro t ht
              rcases mem_queue ht with h1 | h1
              · rw [h1.1]; simp
              · exact hs t h1
    · rename_i id _
      have hq : ∀ t ∈ st.op.queue (.pairEscrow pair.id) (.poolReserve id) [⟨pair.demandDenom o.dir, o.received⟩], (∀ u, t.src ≠ .user u) := by
        intro t ht
        rcases mem_queue ht with h1 | h1
        · rw [h1.1]; simp
        · exact hs t h1
      split at h
      · cases h; exact ⟨hR.refl _, hq⟩
      · split at h
        · cases h
        · cases h; exact ⟨hR.refl _, hq⟩

theorem rel_apply_all (hR : SendRel R) {pair : Pair} : ∀ {os : List Order} {st st' : ApplyState}, forEach (applyOrder pair) os st = some st' →
    (∀ t ∈ st.op, (∀ u, t.src ≠ .user u)) → R st.s.bank st'.s.bank ∧ ∀ t ∈ st'.op, (∀ u, t.src ≠ .user u) := by
  intro os
  induction os with
  | nil => intro st st' h hs; cases h; exact ⟨hR.refl _, hs⟩
  | cons o os ih =>
    intro st st' h hs
    rw [forEach, Option.bind_eq_some_iff] at h
    obtain ⟨t, h1, h2⟩ := h
    obtain ⟨a1, a2⟩ := rel_applyOrder hR h1 hs
    obtain ⟨b1, b2⟩ := ih h2 a2
    exact ⟨hR.trans a1 b1, b2⟩

theorem rel_applyMatchResult (hR : SendRel R) {pair : Pair} {os : List Order} {diff : Int} (h : applyMatchResult pair os diff s = some s') :
    R s.bank s'.bank := by
  unfold applyMatchResult at h
  split at h
  · cases h
  · rename_i b hb
    have h1 : R s.bank b := hR.run (fun t ht => by
      obtain ⟨id, e⟩ := queuePool_src (by simp) t ht
      rw [e]; simp) hb
    split at h
    · cases h
    · rename_i st hst
      obtain ⟨a1, a2⟩ := rel_apply_all hR hst (by simp)
      split at h
      · cases h
      · rename_i b2 hb2
        cases h
        refine hR.trans (hR.trans h1 a1) (hR.run (fun t ht => ?_) hb2)
        rcases mem_queue ht with e | e
        · rw [e.1]; simp
        · exact a2 t e

theorem rel_executeMatching (hR : SendRel R) {env : Env} {pair : Pair} (h : executeMatching env pair s = some s') : R s.bank s'.bank := by
  unfold executeMatching at h
  split at h
  · cases h
  · rename_i s1 os h1
    have g1 : R s.bank s1.bank := rel_forEach hR (fun st : State × List Order => st.1.bank) (fun x a b => rel_collectOrder hR) h1
    split at h
    · cases h
    · rename_i s2 ps h2
      have g2 : R s1.bank s2.bank := rel_forEach hR (fun st : State × List (Nat × Pool) => st.1.bank) (fun x a b => rel_collectPool hR) h2
      split at h
      · cases h
      · cases h; exact hR.trans g1 g2
      · split at h
        · cases h
        · rename_i s3 h3
          cases h
          exact hR.trans (hR.trans g1 g2) (rel_applyMatchResult hR (s' := s3) h3)

theorem rel_expireOrder (hR : SendRel R) {o : OrderRec} (e : expireOrder o s = some s') : R s.bank s'.bank := by
  unfold expireOrder at e
  split at e
  · exact rel_finishOrder hR e
  · split at e
    · exact rel_finishOrder hR e
    · cases e; exact hR.refl _

theorem gains_rel (u : Nat) : SendRel (Gains u) := ⟨Gains.refl, Gains.trans, fun hs h => gains_send (hs u) h⟩

theorem supply_rel : SendRel (fun b b' => b'.supply = b.supply) := ⟨fun _ => rfl, fun h h' => h'.trans h, fun _ h => (send_some h).2.2.1⟩

theorem gains_forEach {α σ : Type} (g : σ → Bank) {f : α → σ → Option σ} (hf : ∀ x s s', f x s = some s' → Gains u (g s) (g s'))
    {l : List α} {s s' : σ} (h : forEach f l s = some s') : Gains u (g s) (g s') := rel_forEach (gains_rel u) g hf h

theorem gains_finishOrder {o : OrderRec} {st : OStatus} (h : finishOrder o st s = some s') : Gains u s.bank s'.bank :=
  rel_finishOrder (gains_rel u) h

theorem gains_executeMatching {env : Env} {pair : Pair} (h : executeMatching env pair s = some s') : Gains u s.bank s'.bank :=
  rel_executeMatching (gains_rel u) h

theorem gains_finishDeposit {r : DepReq} {st : ReqStatus} (h : finishDeposit r st s = some s') : Gains u s.bank s'.bank := by
  unfold finishDeposit at h
  split at h
  · cases h; exact Gains.refl _
  · simp only at h
    split at h
    · cases h
    · split at h
      · cases h
      · rename_i b hb
        cases h
        split at hb
        · cases hb; exact Gains.refl _
        · exact gains_send (by simp) hb

theorem gains_executeDeposit {env : Env} {r : DepReq} (h : executeDeposit env r s = some s') : Gains u s.bank s'.bank := by
  unfold executeDeposit at h
  split at h
  · cases h
  · split at h
    · exact gains_finishDeposit h
    · split at h
      · cases h
      · simp only at h
        split at h
        · cases h
        · split at h
          · exact gains_finishDeposit (s := s.markDisabled _) h
          · split at h
            · cases h
            · split at h
              · exact gains_finishDeposit h
              · split at h
                · cases h
                · rename_i b1 hb1
                  split at h
                  · cases h
                  · rename_i b2 hb2
                    refine (gains_mint hb1).trans ((gains_run ?_ hb2).trans (gains_finishDeposit h))
                    intro t ht
                    rcases mem_queue ht with e | e
                    · rw [e.1]; simp
                    · rcases mem_queue e with e | e
                      · rw [e.1]; simp
                      · cases e

theorem gains_finishWithdraw {r : WdReq} {st : ReqStatus} (h : finishWithdraw r st s = some s') : Gains u s.bank s'.bank := by
  unfold finishWithdraw at h
  split at h
  · cases h; exact Gains.refl _
  · split at h
    · cases h
    · rename_i b hb
      cases h
      split at hb
      · exact gains_send (by simp) hb
      · cases hb; exact Gains.refl _

theorem gains_executeWithdraw {env : Env} {r : WdReq} (h : executeWithdraw env r s = some s') : Gains u s.bank s'.bank := by
  unfold executeWithdraw at h
  split at h
  · cases h
  · split at h
    · exact gains_finishWithdraw h
    · split at h
      · cases h
      · simp only at h
        split at h
        · cases h
        · split at h
          · exact gains_finishWithdraw (s := s.markDisabled _) h
          · split at h
            · cases h
            · split at h
              · exact gains_finishWithdraw h
              · split at h
                · cases h
                · rename_i b1 hb1
                  split at h
                  · cases h
                  · rename_i b2 hb2
                    refine (gains_run ?_ hb1).trans ((gains_burn hb2).trans ?_)
                    · intro t ht
                      rcases mem_queue ht with e | e
                      · rw [e.1]; simp
                      · rcases mem_queue e with e | e
                        · rw [e.1]; simp
                        · cases e
                    · have := gains_finishWithdraw (u := u) h
                      split at this <;> exact this

theorem gains_batch {env : Env} (h : executeRequests env s = some s') : Gains u s.bank s'.bank := by
  unfold executeRequests at h
  split at h
  · cases h
  · rename_i s1 h1
    split at h
    · cases h
    · rename_i s2 h2
      split at h
      · cases h
      · rename_i s3 h3
        refine (gains_forEach (fun s : State => s.bank) (fun x a b => gains_executeMatching) h1).trans
          ((gains_forEach (fun s : State => s.bank) (fun x a b e => ?_) h2).trans
          ((gains_forEach (fun s : State => s.bank) (fun x a b e => ?_) h3).trans (gains_forEach (fun s : State => s.bank) (fun x a b e => ?_) h)))
        · exact rel_expireOrder (gains_rel u) e
        · unfold depositPass at e
          split at e
          · exact gains_executeDeposit e
          · cases e; exact Gains.refl _
        · unfold withdrawPass at e
          split at e
          · exact gains_executeWithdraw e
          · cases e; exact Gains.refl _

theorem gains_createPoolBank {creator poolId : Nat} {coins : Coins} {supply : Int} {b : Bank} (hne : creator ≠ u)
    (h : createPoolBank s creator poolId coins supply = some b) : Gains u s.bank b := by
  unfold createPoolBank at h
  simp only [Option.bind_eq_some_iff] at h
  obtain ⟨b1, h1, b2, h2, b3, h3, h4⟩ := h
  exact (gains_send (by simpa using hne) h1).trans ((gains_send (by simpa using hne) h2).trans ((gains_mint h3).trans (gains_send (by simp) h4)))

theorem gains_placeOrder {typ : OType} {orderer pairId : Nat} {dir : Dir} {offer : Coin} {demand : Denom} {price amount lifespan : Int}
    (hne : orderer ≠ u) (h : placeOrder typ orderer pairId dir offer demand price amount lifespan s = some s') : Gains u s.bank s'.bank := by
  unfold placeOrder at h
  split at h
  · cases h
  · split at h
    · cases h
    · split at h
      · cases h
      · split at h
        · cases h
        · split at h
          · cases h
          · split at h
            · cases h
            · simp only at h
              split at h
              · cases h
              · split at h
                · cases h
                · split at h
                  · cases h
                  · rename_i b hb
                    cases h
                    exact gains_send (by simpa using hne) hb

theorem gains_tx {valid : Bool} {handler : State → Option State} (h : ∀ s', handler s = some s' → Gains u s.bank s'.bank) :
    Gains u s.bank (tx valid handler s).bank := by
  rcases tx_cases (valid := valid) (handler := handler) (s := s) with e | ⟨_, e⟩
  · rw [e]; exact Gains.refl _
  · exact h _ e

theorem gains_step {env : Env} {op : Op} (hne : sender op ≠ some u) (h : step env op s = some s') : Gains u s.bank s'.bank := by
  cases op with
  | createPair m =>
    cases h
    refine gains_tx (fun s' e => ?_)
    unfold createPair at e
    split at e
    · cases e
    · split at e
      · cases e
      · rename_i b hb
        cases e
        exact gains_send (by simpa [sender] using hne) hb
  | createPool m =>
    cases h
    refine gains_tx (fun s' e => ?_)
    unfold createPool at e
    split at e
    · cases e
    · split at e
      · cases e
      · simp only at e
        split at e
        · cases e
        · rename_i b hb
          cases e
          exact gains_createPoolBank (by simpa [sender] using hne) hb
  | createRangedPool m =>
    cases h
    refine gains_tx (fun s' e => ?_)
    unfold createRangedPoolMsg at e
    split at e
    · cases e
    · split at e
      · cases e
      · cases e
      · split at e
        · cases e
        · simp only at e
          split at e
          · cases e
          · rename_i b hb
            cases e
            exact gains_createPoolBank (by simpa [sender] using hne) hb
  | deposit m =>
    cases h
    refine gains_tx (fun s' e => ?_)
    unfold depositMsg at e
    split at e
    · cases e
    · split at e
      · cases e
      · split at e
        · cases e
        · split at e
          · cases e
          · split at e
            · cases e
            · simp only at e
              split at e
              · cases e
              · split at e
                · cases e
                · split at e
                  · cases e
                  · rename_i b hb
                    cases e
                    exact gains_send (by simpa [sender] using hne) hb
  | withdraw m =>
    cases h
    refine gains_tx (fun s' e => ?_)
    unfold withdrawMsg at e
    split at e
    · cases e
    · split at e
      · cases e
      · split at e
        · cases e
        · split at e
          · cases e
          · rename_i b hb
            cases e
            exact gains_send (by simpa [sender] using hne) hb
  | limitOrder m => cases h; exact gains_tx (fun s' e => gains_placeOrder (by simpa [sender] using hne) e)
  | marketOrder m => cases h; exact gains_tx (fun s' e => gains_placeOrder (by simpa [sender] using hne) e)
  | mmOrder m =>
    cases h
    refine gains_tx (fun s' e => ?_)
    unfold mmOrder at e
    simp only at e
    split at e
    · cases e
    · rw [Option.map_eq_some_iff] at e
      obtain ⟨t, ht, rfl⟩ := e
      exact gains_placeOrder (s' := t) (by simpa [sender] using hne) ht
  | cancelOrder m =>
    cases h
    refine gains_tx (fun s' e => ?_)
    unfold cancelOrder at e
    split at e
    · cases e
    · split at e
      · cases e
      · split at e
        · cases e
        · split at e
          · cases e
          · split at e
            · cases e
            · exact gains_finishOrder e
  | cancelAllOrders m =>
    cases h
    refine gains_tx (fun s' e => ?_)
    unfold cancelAllOrders at e
    split at e
    · cases e
    · refine gains_forEach (fun s : State => s.bank) (fun x a b e => ?_) e
      unfold cancelAllStep at e
      split at e
      · split at e
        · cases e
        · split at e
          · exact gains_finishOrder e
          · cases e; exact Gains.refl _
      · cases e; exact Gains.refl _
  | transfer src dst cs =>
    cases h
    refine gains_tx (fun s' e => ?_)
    rw [Option.map_eq_some_iff] at e
    obtain ⟨b, hb, rfl⟩ := e
    exact gains_send (by simpa [sender] using hne) hb
  | setParams p =>
    cases h
    refine gains_tx (fun s' e => ?_)
    cases e; exact Gains.refl _
  | beginBlock a b => cases h; exact Gains.refl _
  | endBlock =>
    change endBlock env s = some s' at h
    unfold endBlock at h
    split at h
    · cases h
    · split at h
      · exact gains_batch h
      · cases h; exact Gains.refl _

theorem gains_history {env : Env} : ∀ {ops : List Op} {s s' : State}, (∀ op ∈ ops, sender op ≠ some u) → run env ops s = some s' →
    Gains u s.bank s'.bank := by
  intro ops
  induction ops with
  | nil => intro s s' _ h; cases h; exact Gains.refl _
  | cons op ops ih =>
    intro s s' hne h
    rw [run, Option.bind_eq_some_iff] at h
    obtain ⟨t, h1, h2⟩ := h
    exact (gains_step (hne op (by simp)) h1).trans (ih (fun o ho => hne o (by simp [ho])) h2)

end Verif.Dex

import Verif.Proofs.DiskRead
import Verif.Proofs.History
import Verif.Proofs.Steps
/-! # The store calls of a history -/
namespace Verif.Dex.KV
open Verif Verif.Dex Verif.Dex.Keys Verif.Spec.Keys Verif.Spec

variable {enc : Enc} {s s' : State} {kv kv' : Store}

theorem sameDeposit_ids {r r' : DepReq} (h : SameDeposit r r') : r'.poolId = r.poolId ∧ r'.id = r.id ∧ r'.depositor = r.depositor := by
  unfold SameDeposit at h; cases r; cases r'; simp_all

theorem sameWithdraw_ids {r r' : WdReq} (h : SameWithdraw r r') : r'.poolId = r.poolId ∧ r'.id = r.id ∧ r'.withdrawer = r.withdrawer := by
  unfold SameWithdraw at h; cases r; cases r'; simp_all

theorem storable_back (he : Evolves s s') (hk : Keeps s s') (h : Storable enc s') : Storable enc s where
  lastPairId := lt_of_le_of_lt he.lastPair h.lastPairId
  lastPoolId := lt_of_le_of_lt he.lastPool h.lastPoolId
  pairs := fun p hp => by
    obtain ⟨p', hp', h1, h2, h3, _⟩ := he.pairs p hp
    have := h.pairs p' hp'
    rwa [h1, h2, h3] at this
  pools := fun p hp => by
    obtain ⟨p', hp', h1, h2, _⟩ := he.pools p hp
    have := h.pools p' hp'
    rwa [h1, h2] at this
  deposits := fun r hr => by
    obtain ⟨r', hr', hs⟩ := hk.deps r hr
    obtain ⟨h1, h2, h3⟩ := sameDeposit_ids hs
    have := h.deposits r' hr'
    rwa [h1, h2, h3] at this
  withdraws := fun r hr => by
    obtain ⟨r', hr', hs⟩ := hk.wds r hr
    obtain ⟨h1, h2, h3⟩ := sameWithdraw_ids hs
    have := h.withdraws r' hr'
    rwa [h1, h2, h3] at this
  orders := fun o ho => by
    obtain ⟨o', ho', hs⟩ := hk.orders o ho
    have := h.orders o' ho'
    rwa [hs.2.1, hs.2.2.1, hs.2.2.2.2.1] at this

theorem written_bank {b : Bank} (h : Written enc s kv) : Written enc { s with bank := b } kv :=
  h.idle ⟨rfl, rfl, rfl, rfl, rfl, rfl, rfl, rfl⟩

theorem written_disable {pool : PoolRec} (h : Written enc s kv) (hp : pool ∈ s.pools) :
    Written enc (s.markDisabled pool) (KV.setPool { pool with disabled := true } kv) :=
  h.poolSaved pool { pool with disabled := true } hp ⟨rfl, rfl⟩

theorem key_ne {a b c d : Nat} (h : ¬ (a = c ∧ b = d)) : (a, b) ≠ (c, d) := fun e => h ⟨congrArg Prod.fst e, congrArg Prod.snd e⟩

theorem written_counter {a p : Nat} {n : Option Nat} (h : Written enc s kv) (hp : p < 2 ^ 64) (ha : Name (enc.addr (.user a))) :
    ∃ kv', Written enc (s.setNumMM a p n) kv' := by
  obtain ⟨k, hk⟩ := Props.C32_key_defined (.numMM (enc.addr (.user a)) (u64 p)) ha
  have hk' : getNumMMOrdersKey (enc.addr (.user a)) (u64 p) = some k := hk
  cases n with
  | none => exact ⟨_, h.counterDeleted a p hp ha (by rw [deleteNumMMOrders, hk']; rfl)⟩
  | some n => exact ⟨_, h.counterSaved a p n hp ha (by rw [setNumMMOrders, hk']; rfl)⟩

theorem written_atom (hw : WF s) (h : Atom s s') (hst : Storable enc s') (hwr : Written enc s kv) : ∃ kv', Written enc s' kv' := by
  cases h with
  | bank b h hg => exact ⟨kv, written_bank hwr⟩
  | newPair base quote hne hu =>
    have hm : Dex.newPair (s.lastPairId + 1) base quote ∈
        ({ s with lastPairId := s.lastPairId + 1 }.setPair (Dex.newPair (s.lastPairId + 1) base quote)).pairs :=
      hw.pairsS.mem_upsert.2 (Or.inl rfl)
    obtain ⟨h1, h2, h3⟩ := hst.pairs _ hm
    refine ⟨_, hwr.pairCreated (Dex.newPair (s.lastPairId + 1) base quote) rfl (fun q hq hc => ?_) h1 h2 h3⟩
    have := List.find?_eq_none.1 hu q hq
    simp at this
    exact this hc.1 hc.2
  | nextBatch pair lp g hp ho =>
    refine ⟨_, (hwr.idle (s' := { s with shortfall := g }) ⟨rfl, rfl, rfl, rfl, rfl, rfl, rfl, rfl⟩).pairSaved pair _ hp ⟨rfl, rfl, rfl⟩⟩
  | newPool pair creator range amt b hp hb hcap ha hm =>
    have hmem : Dex.newPool (s.lastPoolId + 1) pair.id creator range ∈
        ({ s with lastPoolId := s.lastPoolId + 1, bank := b }.setPool (Dex.newPool (s.lastPoolId + 1) pair.id creator range)).pools :=
      hw.poolsS.mem_upsert.2 (Or.inl rfl)
    obtain ⟨h1, h2, h3⟩ := hst.pools _ hmem
    obtain ⟨k, hk⟩ := Props.C32_key_defined (.poolByReserve (enc.addr (.poolReserve (s.lastPoolId + 1)))) h3
    have hk' : getPoolByReserveAddressIndexKey (enc.addr (.poolReserve (s.lastPoolId + 1))) = some k := hk
    exact ⟨_, (written_bank (b := b) hwr).poolCreated (Dex.newPool (s.lastPoolId + 1) pair.id creator range) rfl h1 h2 h3
      (by rw [setPoolByReserveIndex, show (Dex.newPool (s.lastPoolId + 1) pair.id creator range).id = s.lastPoolId + 1 from rfl, hk']; rfl)⟩
  | disablePool pool hp => exact ⟨_, written_disable hwr hp⟩
  | mint pool amt b hp ha hm => exact ⟨kv, written_bank hwr⟩
  | burn pool amt b hp ha hm =>
    by_cases e : amt = s.bank.supply (.pool pool.id)
    · rw [if_pos e]; exact ⟨_, written_disable (written_bank hwr) hp⟩
    · rw [if_neg e]; exact ⟨kv, written_bank hwr⟩
  | newDeposit pool r b hp ha h hb hid hpid hacc hstt hpos hnd hh =>
    have hm : r ∈ (({ s with bank := b }.setPool { pool with lastDepositId := pool.lastDepositId + 1 }).setDeposit r).deposits :=
      hw.depsS.mem_upsert.2 (Or.inl rfl)
    obtain ⟨h1, h2, h3⟩ := hst.deposits _ hm
    obtain ⟨k, hk⟩ := Props.C32_key_defined (.depositIndex (enc.addr (.user r.depositor)) (u64 r.poolId) (u64 r.id)) h3
    have hk' : getDepositRequestIndexKey (enc.addr (.user r.depositor)) (u64 r.poolId) (u64 r.id) = some k := hk
    refine ⟨_, ((written_bank (b := b) hwr).poolSaved pool { pool with lastDepositId := pool.lastDepositId + 1 } hp ⟨rfl, rfl⟩).depositCreated
      r (fun q hq hc => ?_) ⟨h1, h2⟩ h3 (by rw [setDepositRequestIndex, hk']; rfl)⟩
    obtain ⟨_, ⟨p, hp', e1, e2⟩, _⟩ := hw.deps q hq
    have : p = pool := hw.poolsS.inj hp' hp (by unfold PoolRec.key; rw [e1, hc.1, hpid])
    rw [this, hc.2, hid] at e2
    omega
  | newWithdraw pool r b hp ha h hb hid hpid hstt hden hpos hh =>
    have hm : r ∈ (({ s with bank := b }.setPool { pool with lastWithdrawId := pool.lastWithdrawId + 1 }).setWithdraw r).withdraws :=
      hw.wdsS.mem_upsert.2 (Or.inl rfl)
    obtain ⟨h1, h2, h3⟩ := hst.withdraws _ hm
    obtain ⟨k, hk⟩ := Props.C32_key_defined (.withdrawIndex (enc.addr (.user r.withdrawer)) (u64 r.poolId) (u64 r.id)) h3
    have hk' : getWithdrawRequestIndexKey (enc.addr (.user r.withdrawer)) (u64 r.poolId) (u64 r.id) = some k := hk
    refine ⟨_, ((written_bank (b := b) hwr).poolSaved pool { pool with lastWithdrawId := pool.lastWithdrawId + 1 } hp ⟨rfl, rfl⟩).withdrawCreated
      r (fun q hq hc => ?_) ⟨h1, h2⟩ h3 (by rw [setWithdrawRequestIndex, hk']; rfl)⟩
    obtain ⟨_, ⟨p, hp', e1, e2⟩, _⟩ := hw.wds q hq
    have : p = pool := hw.poolsS.inj hp' hp (by unfold PoolRec.key; rw [e1, hc.1, hpid])
    rw [this, hc.2, hid] at e2
    omega
  | finDeposit r r' b hr hstt hst' hs h hb =>
    exact ⟨_, (written_bank (b := b) hwr).depositSaved r r' hr ⟨hs.2.1, hs.1, hs.2.2.2.1⟩⟩
  | finWithdraw r r' b hr hstt hst' hs h hb =>
    exact ⟨_, (written_bank (b := b) hwr).withdrawSaved r r' hr ⟨hs.2.1, hs.1, hs.2.2.2.1⟩⟩
  | newOrder pair o b hp h hg hid hpid hbid hstt hopen hrem hpr hoff hdem hcap =>
    have hm : o ∈ ((({ s with bank := b }.setPair { pair with lastOrderId := pair.lastOrderId + 1 }).setOrder o).incMM o).orders := by
      rw [(incMM_orders _ _).1]
      exact hw.ordersS.mem_upsert.2 (Or.inl rfl)
    obtain ⟨h1, h2, h3⟩ := hst.orders _ hm
    obtain ⟨k, hk⟩ := Props.C32_key_defined (.orderIndex (enc.addr (.user o.orderer)) (u64 o.pairId) (u64 o.id)) h3
    have hk' : getOrderIndexKey (enc.addr (.user o.orderer)) (u64 o.pairId) (u64 o.id) = some k := hk
    have hwr' := ((written_bank (b := b) hwr).pairSaved pair { pair with lastOrderId := pair.lastOrderId + 1 } hp ⟨rfl, rfl, rfl⟩).orderCreated
      o (fun q hq hc => by
        obtain ⟨_, _, p, hp', e1, e2, _⟩ := hw.ords q hq
        have : p = pair := hw.pairsS.inj hp' hp (by unfold Pair.key; rw [e1, hc.1, hpid])
        rw [this, hc.2, hid] at e2
        omega) ⟨h1, h2⟩ h3 (by rw [setOrderIndex, hk']; rfl)
    unfold State.incMM
    by_cases e : o.typ = .mm
    · rw [if_pos e]; exact written_counter hwr' h1 h3
    · rw [if_neg e]; exact ⟨_, hwr'⟩
  | updOrder o o' ho hd hstt hs hrem => exact ⟨_, hwr.orderSaved o o' ho ⟨hs.2.2.1, hs.2.1, hs.2.2.2.2.1⟩⟩
  | finOrder o o' b ho hd hd' hs hrem h hg =>
    have hwr' := (written_bank (b := b) hwr).orderSaved o o' ho ⟨hs.2.2.1, hs.2.1, hs.2.2.2.2.1⟩
    have hm : o' ∈ (({ s with bank := b }.setOrder o').decMM o').orders := by
      rw [(decMM_orders _ _).1]
      exact hw.ordersS.mem_upsert.2 (Or.inl rfl)
    obtain ⟨h1, h2, h3⟩ := hst.orders _ hm
    unfold State.decMM
    by_cases e : o'.typ = .mm
    · rw [if_pos e]; exact written_counter hwr' h1 h3
    · rw [if_neg e]; exact ⟨_, hwr'⟩

theorem written_reach (hw : WF s) (h : Reach s s') (hst : Storable enc s') (hwr : Written enc s kv) : ∃ kv', Written enc s' kv' := by
  induction h with
  | refl => exact ⟨kv, hwr⟩
  | tail h1 h2 ih =>
    have hw' := reach_wf hw h1
    obtain ⟨kv', hwr'⟩ := ih (storable_back (evolves_atom hw' h2) (keeps_atom hw' h2) hst)
    exact written_atom hw' h2 hst hwr'

/-- Deleting records one by one. -/
theorem written_deposits (del : DepReq → Bool) : ∀ (n : Nat) (s : State) (kv : Store), (s.deposits.filter del).length = n → Sorted DepReq.key s.deposits →
    (∀ r ∈ s.deposits, Name (enc.addr (.user r.depositor))) → Written enc s kv →
    ∃ kv', Written enc { s with deposits := s.deposits.filter (fun r => !del r) } kv' := by
  intro n
  induction n with
  | zero =>
    intro s kv hn _ _ h
    refine ⟨kv, ?_⟩
    have e : s.deposits.filter (fun r => !del r) = s.deposits := by
      rw [List.filter_eq_self]
      intro r hr
      have := List.eq_nil_of_length_eq_zero hn
      rw [List.filter_eq_nil_iff] at this
      simpa using this r hr
    rw [e]
    exact h
  | succ n ih =>
    intro s kv hn hS hst h
    obtain ⟨r, hr⟩ := List.exists_mem_of_length_pos (l := s.deposits.filter del) (by omega)
    obtain ⟨hr1, hr2⟩ := List.mem_filter.1 hr
    have h3 := hst r hr1
    obtain ⟨k, hk⟩ := Props.C32_key_defined (.depositIndex (enc.addr (.user r.depositor)) (u64 r.poolId) (u64 r.id)) h3
    have hk' : getDepositRequestIndexKey (enc.addr (.user r.depositor)) (u64 r.poolId) (u64 r.id) = some k := hk
    have hwr := h.depositDeleted r hr1 (by rw [deleteDepositRequest, hk']; rfl)
    have hsame : ∀ q ∈ s.deposits, (q.poolId = r.poolId ∧ q.id = r.id) ↔ q = r := by
      intro q hq
      constructor
      · rintro ⟨e1, e2⟩; exact hS.inj hq hr1 (by unfold DepReq.key; rw [e1, e2])
      · rintro rfl; exact ⟨rfl, rfl⟩
    have hf : s.deposits.filter (fun q => ¬ (q.poolId = r.poolId ∧ q.id = r.id)) = s.deposits.filter (fun q => q ≠ r) := by
      apply List.filter_congr
      intro q hq
      rw [decide_eq_decide, not_iff_not]
      exact hsame q hq
    rw [hf] at hwr
    have hnd : s.deposits.Nodup := List.Pairwise.imp (fun hlt e => by subst e; exact absurd hlt (by simp [keyLt_iff])) hS
    obtain ⟨kv', hk2⟩ := ih _ _ (by
      show ((s.deposits.filter (fun q => q ≠ r)).filter del).length = n
      have e : (s.deposits.filter (fun q => q ≠ r)).filter del = (s.deposits.filter del).erase r := by
        rw [(hnd.filter _).erase_eq_filter, List.filter_filter, List.filter_filter]
        apply List.filter_congr
        intro q _
        by_cases e : q = r <;> simp [e]
      rw [e, List.length_erase_of_mem hr, hn]; rfl) (hS.filter _) (fun q hq => hst q (List.mem_filter.1 hq).1) hwr
    refine ⟨kv', ?_⟩
    have e : ((s.deposits.filter (fun q => q ≠ r)).filter (fun q => !del q)) = s.deposits.filter (fun q => !del q) := by
      rw [List.filter_filter]
      apply List.filter_congr
      intro q _
      by_cases e : q = r
      · subst e; simp [hr2]
      · simp [e]
    simp only at hk2
    rw [e] at hk2
    exact hk2

/-- Deleting records one by one. -/
theorem written_withdraws (del : WdReq → Bool) : ∀ (n : Nat) (s : State) (kv : Store), (s.withdraws.filter del).length = n → Sorted WdReq.key s.withdraws →
    (∀ r ∈ s.withdraws, Name (enc.addr (.user r.withdrawer))) → Written enc s kv →
    ∃ kv', Written enc { s with withdraws := s.withdraws.filter (fun r => !del r) } kv' := by
  intro n
  induction n with
  | zero =>
    intro s kv hn _ _ h
    refine ⟨kv, ?_⟩
    have e : s.withdraws.filter (fun r => !del r) = s.withdraws := by
      rw [List.filter_eq_self]
      intro r hr
      have := List.eq_nil_of_length_eq_zero hn
      rw [List.filter_eq_nil_iff] at this
      simpa using this r hr
    rw [e]
    exact h
  | succ n ih =>
    intro s kv hn hS hst h
    obtain ⟨r, hr⟩ := List.exists_mem_of_length_pos (l := s.withdraws.filter del) (by omega)
    obtain ⟨hr1, hr2⟩ := List.mem_filter.1 hr
    have h3 := hst r hr1
    obtain ⟨k, hk⟩ := Props.C32_key_defined (.withdrawIndex (enc.addr (.user r.withdrawer)) (u64 r.poolId) (u64 r.id)) h3
    have hk' : getWithdrawRequestIndexKey (enc.addr (.user r.withdrawer)) (u64 r.poolId) (u64 r.id) = some k := hk
    have hwr := h.withdrawDeleted r hr1 (by rw [deleteWithdrawRequest, hk']; rfl)
    have hsame : ∀ q ∈ s.withdraws, (q.poolId = r.poolId ∧ q.id = r.id) ↔ q = r := by
      intro q hq
      constructor
      · rintro ⟨e1, e2⟩; exact hS.inj hq hr1 (by unfold WdReq.key; rw [e1, e2])
      · rintro rfl; exact ⟨rfl, rfl⟩
    have hf : s.withdraws.filter (fun q => ¬ (q.poolId = r.poolId ∧ q.id = r.id)) = s.withdraws.filter (fun q => q ≠ r) := by
      apply List.filter_congr
      intro q hq
      rw [decide_eq_decide, not_iff_not]
      exact hsame q hq
    rw [hf] at hwr
    have hnd : s.withdraws.Nodup := List.Pairwise.imp (fun hlt e => by subst e; exact absurd hlt (by simp [keyLt_iff])) hS
    obtain ⟨kv', hk2⟩ := ih _ _ (by
      show ((s.withdraws.filter (fun q => q ≠ r)).filter del).length = n
      have e : (s.withdraws.filter (fun q => q ≠ r)).filter del = (s.withdraws.filter del).erase r := by
        rw [(hnd.filter _).erase_eq_filter, List.filter_filter, List.filter_filter]
        apply List.filter_congr
        intro q _
        by_cases e : q = r <;> simp [e]
      rw [e, List.length_erase_of_mem hr, hn]; rfl) (hS.filter _) (fun q hq => hst q (List.mem_filter.1 hq).1) hwr
    refine ⟨kv', ?_⟩
    have e : ((s.withdraws.filter (fun q => q ≠ r)).filter (fun q => !del q)) = s.withdraws.filter (fun q => !del q) := by
      rw [List.filter_filter]
      apply List.filter_congr
      intro q _
      by_cases e : q = r
      · subst e; simp [hr2]
      · simp [e]
    simp only at hk2
    rw [e] at hk2
    exact hk2

/-- Deleting records one by one. -/
theorem written_orders (del : OrderRec → Bool) : ∀ (n : Nat) (s : State) (kv : Store), (s.orders.filter del).length = n → Sorted OrderRec.key s.orders →
    (∀ r ∈ s.orders, Name (enc.addr (.user r.orderer))) → Written enc s kv →
    ∃ kv', Written enc { s with orders := s.orders.filter (fun r => !del r) } kv' := by
  intro n
  induction n with
  | zero =>
    intro s kv hn _ _ h
    refine ⟨kv, ?_⟩
    have e : s.orders.filter (fun r => !del r) = s.orders := by
      rw [List.filter_eq_self]
      intro r hr
      have := List.eq_nil_of_length_eq_zero hn
      rw [List.filter_eq_nil_iff] at this
      simpa using this r hr
    rw [e]
    exact h
  | succ n ih =>
    intro s kv hn hS hst h
    obtain ⟨r, hr⟩ := List.exists_mem_of_length_pos (l := s.orders.filter del) (by omega)
    obtain ⟨hr1, hr2⟩ := List.mem_filter.1 hr
    have h3 := hst r hr1
    obtain ⟨k, hk⟩ := Props.C32_key_defined (.orderIndex (enc.addr (.user r.orderer)) (u64 r.pairId) (u64 r.id)) h3
    have hk' : getOrderIndexKey (enc.addr (.user r.orderer)) (u64 r.pairId) (u64 r.id) = some k := hk
    have hwr := h.orderDeleted r hr1 (by rw [deleteOrder, hk']; rfl)
    have hsame : ∀ q ∈ s.orders, (q.pairId = r.pairId ∧ q.id = r.id) ↔ q = r := by
      intro q hq
      constructor
      · rintro ⟨e1, e2⟩; exact hS.inj hq hr1 (by unfold OrderRec.key; rw [e1, e2])
      · rintro rfl; exact ⟨rfl, rfl⟩
    have hf : s.orders.filter (fun q => ¬ (q.pairId = r.pairId ∧ q.id = r.id)) = s.orders.filter (fun q => q ≠ r) := by
      apply List.filter_congr
      intro q hq
      rw [decide_eq_decide, not_iff_not]
      exact hsame q hq
    rw [hf] at hwr
    have hnd : s.orders.Nodup := List.Pairwise.imp (fun hlt e => by subst e; exact absurd hlt (by simp [keyLt_iff])) hS
    obtain ⟨kv', hk2⟩ := ih _ _ (by
      show ((s.orders.filter (fun q => q ≠ r)).filter del).length = n
      have e : (s.orders.filter (fun q => q ≠ r)).filter del = (s.orders.filter del).erase r := by
        rw [(hnd.filter _).erase_eq_filter, List.filter_filter, List.filter_filter]
        apply List.filter_congr
        intro q _
        by_cases e : q = r <;> simp [e]
      rw [e, List.length_erase_of_mem hr, hn]; rfl) (hS.filter _) (fun q hq => hst q (List.mem_filter.1 hq).1) hwr
    refine ⟨kv', ?_⟩
    have e : ((s.orders.filter (fun q => q ≠ r)).filter (fun q => !del q)) = s.orders.filter (fun q => !del q) := by
      rw [List.filter_filter]
      apply List.filter_congr
      intro q _
      by_cases e : q = r
      · subst e; simp [hr2]
      · simp [e]
    simp only at hk2
    rw [e] at hk2
    exact hk2

theorem written_beginBlock (hw : WF s) (hst : Storable enc s) (h : Written enc s kv) (height : Nat) (time : Int) :
    ∃ kv', Written enc (beginBlock height time s) kv' := by
  have h0 : Written enc { s with height := height, time := time } kv := h.idle ⟨rfl, rfl, rfl, rfl, rfl, rfl, rfl, rfl⟩
  obtain ⟨k1, h1⟩ := written_deposits (fun r => r.status.shouldBeDeleted) _ { s with height := height, time := time } _ rfl hw.depsS
    (fun r hr => (hst.deposits r hr).2.2) h0
  obtain ⟨k2, h2⟩ := written_withdraws (fun r => r.status.shouldBeDeleted) _ { s with
    height := height, time := time, deposits := s.deposits.filter (fun r => !r.status.shouldBeDeleted) } _ rfl hw.wdsS
    (fun r hr => (hst.withdraws r hr).2.2) h1
  obtain ⟨k3, h3⟩ := written_orders (fun r => r.status.shouldBeDeleted) _ { s with
    height := height, time := time, deposits := s.deposits.filter (fun r => !r.status.shouldBeDeleted),
    withdraws := s.withdraws.filter (fun r => !r.status.shouldBeDeleted) } _ rfl hw.ordersS (fun r hr => (hst.orders r hr).2.2) h2
  exact ⟨k3, h3⟩

theorem written_step {env : Env} {op : Op} (hw : WF s) (h : step env op s = some s') (hst : Storable enc s) (hst' : Storable enc s')
    (hwr : Written enc s kv) : ∃ kv', Written enc s' kv' := by
  rcases step_cases hw h with hr | ⟨p, _, _, rfl⟩ | ⟨height, time, _, rfl⟩
  · exact written_reach hw hr hst' hwr
  · exact ⟨kv, hwr.idle ⟨rfl, rfl, rfl, rfl, rfl, rfl, rfl, rfl⟩⟩
  · exact written_beginBlock hw hst hwr height time

theorem written_run {env : Env} : ∀ {ops : List Op} {s s' : State} {kv : Store}, WF s → run env ops s = some s' →
    (∀ k t, run env (ops.take k) s = some t → Storable enc t) → Written enc s kv → ∃ kv', Written enc s' kv' := by
  intro ops
  induction ops with
  | nil => intro s s' kv _ h _ hwr; cases h; exact ⟨kv, hwr⟩
  | cons op ops ih =>
    intro s s' kv hw h hst hwr
    simp only [run] at h
    cases e : step env op s with
    | none => rw [e] at h; cases h
    | some t =>
      rw [e] at h
      have h0 := hst 0 s rfl
      have h1 := hst 1 t (by simp [run, e])
      obtain ⟨kv', hk⟩ := written_step hw e h0 h1 hwr
      exact ih (step_wf hw e) h (fun k u hu => hst (k + 1) u (by simp only [List.take_succ_cons, run]; rw [e]; exact hu)) hk

end Verif.Dex.KV

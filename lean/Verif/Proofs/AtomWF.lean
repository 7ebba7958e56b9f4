import Verif.Proofs.Atoms
/-! # The structural invariant is preserved by every elementary change -/
namespace Verif.Dex
open Verif Verif.Amm Verif.Spec

theorem Pair.key_iff {p q : Pair} : p.key = q.key ↔ p.id = q.id := by simp [Pair.key]
theorem PoolRec.key_iff {p q : PoolRec} : p.key = q.key ↔ p.id = q.id := by simp [PoolRec.key]

theorem sum_upsert_new {α : Type} {key : α → Key} {l : List α} (h : Sorted key l) (v : α) (f : α → Int)
    (hn : ∀ x ∈ l, key x ≠ key v) : ((upsert key v l).map f).sum = (l.map f).sum + f v := by
  rw [sum_upsert h, lookup_none_iff.2 hn]; simp

theorem sum_upsert_old {α : Type} {key : α → Key} {l : List α} (h : Sorted key l) (v old : α) (f : α → Int)
    (ho : old ∈ l) (hk : key v = key old) : ((upsert key v l).map f).sum = (l.map f).sum + f v - f old := by
  rw [sum_upsert h, hk, h.lookup_self ho]

theorem countP_sum {α : Type} (l : List α) (p : α → Bool) : (l.countP p : Int) = (l.map (fun x => if p x then (1:Int) else 0)).sum := by
  induction l with
  | nil => simp
  | cons a l ih =>
    rw [List.countP_cons, List.map_cons, List.sum_cons, ← ih]
    split <;> push_cast <;> ring

theorem countP_upsert_new {α : Type} {key : α → Key} {l : List α} (h : Sorted key l) (v : α) (p : α → Bool)
    (hn : ∀ x ∈ l, key x ≠ key v) : (upsert key v l).countP p = l.countP p + (if p v then 1 else 0) := by
  have := sum_upsert_new h v (fun x => if p x then (1:Int) else 0) hn
  rw [← countP_sum, ← countP_sum] at this
  split at this <;> split <;> simp_all <;> omega

theorem countP_upsert_old {α : Type} {key : α → Key} {l : List α} (h : Sorted key l) (v old : α) (p : α → Bool)
    (ho : old ∈ l) (hk : key v = key old) :
    (upsert key v l).countP p + (if p old then 1 else 0) = l.countP p + (if p v then 1 else 0) := by
  have := sum_upsert_old h v old (fun x => if p x then (1:Int) else 0) ho hk
  rw [← countP_sum, ← countP_sum] at this
  split at this <;> split at this <;> simp_all <;> omega

/-- An order list changes by replacing `old` by `v`, both counted alike. -/
theorem liveMM_same {l : List OrderRec} (h : Sorted OrderRec.key l) {v old : OrderRec} (ho : old ∈ l) (hs : SameOrder old v)
    (hd : v.done = old.done) (a p : Nat) : liveMM (upsert OrderRec.key v l) a p = liveMM l a p := by
  have := countP_upsert_old h v old (fun o => o.typ == .mm && !o.done && o.orderer == a && o.pairId == p) ho hs.key
  unfold SameOrder at hs
  simp only [hs, hd] at this
  unfold liveMM
  omega

variable {s : State}

theorem WF.key_pair (h : WF s) {p q : Pair} (hp : p ∈ s.pairs) (hq : q ∈ s.pairs) (e : p.id = q.id) : p = q :=
  h.pairsS.inj hp hq (Pair.key_iff.2 e)

theorem WF.key_pool (h : WF s) {p q : PoolRec} (hp : p ∈ s.pools) (hq : q ∈ s.pools) (e : p.id = q.id) : p = q :=
  h.poolsS.inj hp hq (PoolRec.key_iff.2 e)

theorem WF.getPair_iff (h : WF s) {p : Pair} {id : Nat} : s.getPair id = some p ↔ p ∈ s.pairs ∧ p.id = id := by
  unfold State.getPair
  rw [h.pairsS.lookup_iff]; simp [Pair.key]

theorem WF.getPool_iff (h : WF s) {p : PoolRec} {id : Nat} : s.getPool id = some p ↔ p ∈ s.pools ∧ p.id = id := by
  unfold State.getPool
  rw [h.poolsS.lookup_iff]; simp [PoolRec.key]

theorem WF.getOrder_iff (h : WF s) {o : OrderRec} {pid id : Nat} :
    s.getOrder pid id = some o ↔ o ∈ s.orders ∧ o.pairId = pid ∧ o.id = id := by
  unfold State.getOrder
  rw [h.ordersS.lookup_iff]; simp [OrderRec.key]

/-- Replacing a pair by one with the same identity. -/
theorem WF.mem_setPair (h : WF s) {p p' x : Pair} (hp : p ∈ s.pairs) (hid : p'.id = p.id) :
    x ∈ (s.setPair p').pairs ↔ x = p' ∨ (x ∈ s.pairs ∧ x ≠ p) := by
  show x ∈ upsert Pair.key p' s.pairs ↔ _
  rw [h.pairsS.mem_upsert, Ne, Pair.key_iff, hid]
  constructor
  · rintro (e | ⟨e, e'⟩)
    · exact Or.inl e
    · exact Or.inr ⟨e, fun e2 => e' (by rw [e2])⟩
  · rintro (e | ⟨e, e'⟩)
    · exact Or.inl e
    · exact Or.inr ⟨e, fun e2 => e' (h.key_pair e hp e2)⟩

theorem WF.mem_setPool (h : WF s) {p p' x : PoolRec} (hp : p ∈ s.pools) (hid : p'.id = p.id) :
    x ∈ (s.setPool p').pools ↔ x = p' ∨ (x ∈ s.pools ∧ x ≠ p) := by
  show x ∈ upsert PoolRec.key p' s.pools ↔ _
  rw [h.poolsS.mem_upsert, Ne, PoolRec.key_iff, hid]
  constructor
  · rintro (e | ⟨e, e'⟩)
    · exact Or.inl e
    · exact Or.inr ⟨e, fun e2 => e' (by rw [e2])⟩
  · rintro (e | ⟨e, e'⟩)
    · exact Or.inl e
    · exact Or.inr ⟨e, fun e2 => e' (h.key_pool e hp e2)⟩

theorem WF.mem_setOrder (h : WF s) {p p' x : OrderRec} (hp : p ∈ s.orders) (hid : p'.key = p.key) :
    x ∈ (s.setOrder p').orders ↔ x = p' ∨ (x ∈ s.orders ∧ x ≠ p) := by
  show x ∈ upsert OrderRec.key p' s.orders ↔ _
  rw [h.ordersS.mem_upsert, hid]
  constructor
  · rintro (e | ⟨e, e'⟩)
    · exact Or.inl e
    · exact Or.inr ⟨e, fun e2 => e' (by rw [e2])⟩
  · rintro (e | ⟨e, e'⟩)
    · exact Or.inl e
    · exact Or.inr ⟨e, fun e2 => e' (h.ordersS.inj e hp e2)⟩

theorem WF.mem_setDeposit (h : WF s) {p p' x : DepReq} (hp : p ∈ s.deposits) (hid : p'.key = p.key) :
    x ∈ (s.setDeposit p').deposits ↔ x = p' ∨ (x ∈ s.deposits ∧ x ≠ p) := by
  show x ∈ upsert DepReq.key p' s.deposits ↔ _
  rw [h.depsS.mem_upsert, hid]
  constructor
  · rintro (e | ⟨e, e'⟩)
    · exact Or.inl e
    · exact Or.inr ⟨e, fun e2 => e' (by rw [e2])⟩
  · rintro (e | ⟨e, e'⟩)
    · exact Or.inl e
    · exact Or.inr ⟨e, fun e2 => e' (h.depsS.inj e hp e2)⟩

theorem WF.mem_setWithdraw (h : WF s) {p p' x : WdReq} (hp : p ∈ s.withdraws) (hid : p'.key = p.key) :
    x ∈ (s.setWithdraw p').withdraws ↔ x = p' ∨ (x ∈ s.withdraws ∧ x ≠ p) := by
  show x ∈ upsert WdReq.key p' s.withdraws ↔ _
  rw [h.wdsS.mem_upsert, hid]
  constructor
  · rintro (e | ⟨e, e'⟩)
    · exact Or.inl e
    · exact Or.inr ⟨e, fun e2 => e' (by rw [e2])⟩
  · rintro (e | ⟨e, e'⟩)
    · exact Or.inl e
    · exact Or.inr ⟨e, fun e2 => e' (h.wdsS.inj e hp e2)⟩

/-- Changing a pair in fields other than id and denoms, keeping the order facts. -/
theorem WF.setPair (h : WF s) {p p' : Pair} (hp : p ∈ s.pairs) (hid : p'.id = p.id) (hb : p'.base = p.base)
    (hq : p'.quote = p.quote) (hbt : p.batchId ≤ p'.batchId) (hlo : p.lastOrderId ≤ p'.lastOrderId)
    (ho : ∀ o ∈ s.orders, o.pairId = p.id → o.status = .notExecuted → p'.batchId = p.batchId) : WF (s.setPair p') := by
  have hm := fun x => h.mem_setPair (x := x) hp hid
  have hex : ∀ id, (∃ q ∈ s.pairs, q.id = id) → ∃ q ∈ (s.setPair p').pairs, q.id = id := by
    rintro id ⟨q, hq, rfl⟩
    by_cases e : q = p
    · exact ⟨p', (hm p').2 (Or.inl rfl), by rw [hid, e]⟩
    · exact ⟨q, (hm q).2 (Or.inr ⟨hq, e⟩), rfl⟩
  refine { h with
    pairsS := h.pairsS.upsert p', pairIds := ?_, pairAll := ?_, pairNe := ?_, pairUniq := ?_, poolIds := ?_, ords := ?_, ordsOk := ?_ }
  · intro x hx
    rcases (hm x).1 hx with rfl | ⟨e, _⟩
    · rw [hid]; exact h.pairIds p hp
    · exact h.pairIds x e
  · intro id h1 h2; exact hex id (h.pairAll id h1 h2)
  · intro x hx
    rcases (hm x).1 hx with rfl | ⟨e, _⟩
    · rw [hb, hq]; exact ⟨(h.pairNe p hp).1, le_trans (h.pairNe p hp).2 hbt⟩
    · exact h.pairNe x e
  · intro x hx y hy e1 e2
    rcases (hm x).1 hx with rfl | ⟨e, _⟩ <;> rcases (hm y).1 hy with rfl | ⟨e', _⟩
    · rfl
    · rw [hid]; exact h.pairUniq p hp y e' (by rw [← hb]; exact e1) (by rw [← hq]; exact e2)
    · rw [hid]; exact h.pairUniq x e p hp (by rw [← hb]; exact e1) (by rw [← hq]; exact e2)
    · exact h.pairUniq x e y e' e1 e2
  · intro x hx
    obtain ⟨a, b, c⟩ := h.poolIds x hx
    exact ⟨a, b, hex _ c⟩
  · intro o hoo
    obtain ⟨a, b, q, hq, e1, e2, e3, e4⟩ := h.ords o hoo
    refine ⟨a, b, ?_⟩
    by_cases e : q = p
    · subst e
      refine ⟨p', (hm p').2 (Or.inl rfl), hid.trans e1, le_trans e2 hlo, le_trans e3 hbt, fun hst => ?_⟩
      rw [e4 hst, ho o hoo e1.symm hst]
    · exact ⟨q, (hm q).2 (Or.inr ⟨hq, e⟩), e1, e2, e3, e4⟩
  · intro o hoo
    obtain ⟨a, b, q, hq', e1, e2, e3⟩ := h.ordsOk o hoo
    refine ⟨a, b, ?_⟩
    by_cases e : q = p
    · subst e
      refine ⟨p', (hm p').2 (Or.inl rfl), hid.trans e1, ?_, ?_⟩
      · rw [e2]; cases o.dir <;> simp [Pair.offerDenom, hb, hq]
      · rw [e3]; cases o.dir <;> simp [Pair.demandDenom, hb, hq]
    · exact ⟨q, (hm q).2 (Or.inr ⟨hq', e⟩), e1, e2, e3⟩

/-- Changing a pool in its counters, or disabling it. -/
theorem WF.setPool (h : WF s) {p p' : PoolRec} (hp : p ∈ s.pools) (hid : p'.id = p.id) (hpid : p'.pairId = p.pairId)
    (hr : p'.range = p.range) (hd : p'.disabled = false → p.disabled = false) (h1 : p.lastDepositId ≤ p'.lastDepositId)
    (h2 : p.lastWithdrawId ≤ p'.lastWithdrawId) : WF (s.setPool p') := by
  have hm := fun x => h.mem_setPool (x := x) hp hid
  refine { h with
    poolsS := h.poolsS.upsert p', poolIds := ?_, poolAll := ?_, deps := ?_, wds := ?_, activeSupply := ?_, basicUniq := ?_ }
  · intro x hx
    rcases (hm x).1 hx with rfl | ⟨e, _⟩
    · rw [hid, hpid]; exact h.poolIds p hp
    · exact h.poolIds x e
  · intro id h3 h4
    obtain ⟨q, hq, rfl⟩ := h.poolAll id h3 h4
    by_cases e : q = p
    · exact ⟨p', (hm p').2 (Or.inl rfl), by rw [hid, e]⟩
    · exact ⟨q, (hm q).2 (Or.inr ⟨hq, e⟩), rfl⟩
  · intro r hrr
    obtain ⟨a, ⟨q, hq, e1, e2⟩, c⟩ := h.deps r hrr
    refine ⟨a, ?_, c⟩
    by_cases e : q = p
    · subst e; exact ⟨p', (hm p').2 (Or.inl rfl), hid.trans e1, le_trans e2 h1⟩
    · exact ⟨q, (hm q).2 (Or.inr ⟨hq, e⟩), e1, e2⟩
  · intro r hrr
    obtain ⟨a, ⟨q, hq, e1, e2⟩, c⟩ := h.wds r hrr
    refine ⟨a, ?_, c⟩
    by_cases e : q = p
    · subst e; exact ⟨p', (hm p').2 (Or.inl rfl), hid.trans e1, le_trans e2 h2⟩
    · exact ⟨q, (hm q).2 (Or.inr ⟨hq, e⟩), e1, e2⟩
  · intro x hx hdx
    rcases (hm x).1 hx with rfl | ⟨e, _⟩
    · rw [hid]; exact h.activeSupply p hp (hd hdx)
    · exact h.activeSupply x e hdx
  · intro x hx y hy e1 e2 e3 e4 e5
    rcases (hm x).1 hx with rfl | ⟨e, _⟩ <;> rcases (hm y).1 hy with rfl | ⟨e', _⟩
    · rfl
    · rw [hid]; exact h.basicUniq p hp y e' (by rw [← hpid]; exact e1) (by rw [← hr]; exact e2) e3 (hd e4) e5
    · rw [hid]; exact h.basicUniq x e p hp (by rw [← hpid]; exact e1) e2 (by rw [← hr]; exact e3) e4 (hd e5)
    · exact h.basicUniq x e y e' e1 e2 e3 e4 e5

theorem WF.setBank (h : WF s) {b : Bank} (hb : BankStep s.bank b) (hg : KeepsEscrow s.bank b) : WF { s with bank := b } :=
  { h with
    bankNN := hb.nonneg h.bankNN
    bankSum := hb.sum h.bankSum
    noSupply := fun id hid => by show b.supply _ = 0; rw [hb.supply]; exact h.noSupply id hid
    activeSupply := fun p hp hd => by show 0 < b.supply _; rw [hb.supply]; exact h.activeSupply p hp hd
    escrow := fun d => le_trans (h.escrow d) (hg d) }

/-- Replacing a live order by an order with the same identity, of status not "not executed". -/
theorem WF.setOrder_live (h : WF s) {o o' : OrderRec} (ho : o ∈ s.orders) (hs : SameOrder o o') (hd : o'.done = o.done)
    (hst : o'.status ≠ .notExecuted) (hrem : 0 ≤ o'.remaining) : WF (s.setOrder o') := by
  have hm := fun x => h.mem_setOrder (x := x) ho hs.key
  refine { h with ordersS := h.ordersS.upsert o', ords := ?_, ordsOk := ?_, mm := ?_ }
  · intro x hx
    rcases (hm x).1 hx with rfl | ⟨e, _⟩
    · obtain ⟨a, b, q, hq, e1, e2, e3, e4⟩ := h.ords o ho
      unfold SameOrder at hs
      rw [hs.2.1, hs.2.2.1, hs.2.2.2.2.2.2.2.2.2.2.2.1]
      exact ⟨a, b, q, hq, e1, e2, e3, fun hc => absurd hc hst⟩
    · exact h.ords x e
  · intro x hx
    rcases (hm x).1 hx with rfl | ⟨e, _⟩
    · obtain ⟨a, b, q, hq, e1, e2, e3⟩ := h.ordsOk o ho
      unfold SameOrder at hs
      exact ⟨hrem, by rw [hs.2.2.2.2.2.2.2.2.2.1]; exact b, q, hq, by rw [hs.2.2.1]; exact e1,
        by rw [hs.2.2.2.2.2.2.1, hs.2.2.2.2.2.1]; exact e2, by rw [hs.2.2.2.2.2.2.2.1, hs.2.2.2.2.2.1]; exact e3⟩
    · exact h.ordsOk x e
  · intro a p
    show s.numMM a p = _
    rw [h.mm a p]
    have e : liveMM (s.setOrder o').orders a p = liveMM s.orders a p := liveMM_same h.ordersS ho hs hd a p
    rw [e]

theorem mint_keeps {b b' : Bank} {c : Coin} (h : b.mint c = some b') (a : Addr) (ha : a ≠ .dexModule) (d : Denom) :
    b'.bal a d = b.bal a d := by
  rw [(mint_some h).2.1 a d, if_neg (by simp [ha]), add_zero]

theorem burn_keeps {b b' : Bank} {c : Coin} (h : b.burn c = some b') (a : Addr) (ha : a ≠ .dexModule) (d : Denom) :
    b'.bal a d = b.bal a d := by
  rw [(burn_some h).2.2.1 a d, if_neg (by simp [ha]), sub_zero]


theorem WF.newPair (h : WF s) {base quote : Denom} (hne : base ≠ quote) (hu : s.getPairByDenoms base quote = none) :
    WF ({ s with lastPairId := s.lastPairId + 1 }.setPair (Dex.newPair (s.lastPairId + 1) base quote)) := by
  have hfresh : ∀ x ∈ s.pairs, x.key ≠ (Dex.newPair (s.lastPairId + 1) base quote).key := by
    intro x hx e
    have := Pair.key_iff.1 e
    have := (h.pairIds x hx).2
    simp [Dex.newPair] at *
    omega
  have hm : ∀ x, x ∈ upsert Pair.key (Dex.newPair (s.lastPairId + 1) base quote) s.pairs ↔
      x = Dex.newPair (s.lastPairId + 1) base quote ∨ x ∈ s.pairs := by
    intro x
    rw [h.pairsS.mem_upsert]
    constructor
    · rintro (e | ⟨e, _⟩)
      · exact Or.inl e
      · exact Or.inr e
    · rintro (e | e)
      · exact Or.inl e
      · exact Or.inr ⟨e, hfresh x e⟩
  have hu' : ∀ x ∈ s.pairs, ¬ (x.base = base ∧ x.quote = quote) := by
    unfold State.getPairByDenoms at hu
    rw [List.find?_eq_none] at hu
    intro x hx hc
    exact hu x hx (by simp [hc])
  refine { h with
    pairsS := h.pairsS.upsert _, pairIds := ?_, pairAll := ?_, pairNe := ?_, pairUniq := ?_, poolIds := ?_, ords := ?_, ordsOk := ?_ }
  · intro x hx
    rcases (hm x).1 hx with rfl | e
    · show 1 ≤ s.lastPairId + 1 ∧ s.lastPairId + 1 ≤ s.lastPairId + 1
      omega
    · have := h.pairIds x e
      show _ ∧ x.id ≤ s.lastPairId + 1
      omega
  · intro id h1 h2
    have h2 : id ≤ s.lastPairId + 1 := h2
    by_cases e : id = s.lastPairId + 1
    · exact ⟨_, (hm _).2 (Or.inl rfl), e.symm⟩
    · obtain ⟨p, hp, e⟩ := h.pairAll id h1 (by omega)
      exact ⟨p, (hm p).2 (Or.inr hp), e⟩
  · intro x hx
    rcases (hm x).1 hx with rfl | e
    · exact ⟨hne, le_refl _⟩
    · exact h.pairNe x e
  · intro x hx y hy e1 e2
    rcases (hm x).1 hx with rfl | e <;> rcases (hm y).1 hy with rfl | e'
    · rfl
    · exact absurd ⟨e1.symm, e2.symm⟩ (hu' y e')
    · exact absurd ⟨e1, e2⟩ (hu' x e)
    · exact h.pairUniq x e y e' e1 e2
  · intro x hx
    obtain ⟨a, b, q, hq, c⟩ := h.poolIds x hx
    exact ⟨a, b, q, (hm q).2 (Or.inr hq), c⟩
  · intro o ho
    obtain ⟨a, b, q, hq, c⟩ := h.ords o ho
    exact ⟨a, b, q, (hm q).2 (Or.inr hq), c⟩
  · intro o ho
    obtain ⟨a, b, q, hq, c⟩ := h.ordsOk o ho
    exact ⟨a, b, q, (hm q).2 (Or.inr hq), c⟩

theorem WF.mint (h : WF s) {pool : PoolRec} {amt : Int} {b : Bank} (hp : pool ∈ s.pools)
    (hm : s.bank.mint ⟨.pool pool.id, amt⟩ = some b) : WF { s with bank := b } := by
  obtain ⟨m1, m2, m3⟩ := mint_some hm
  simp only at m1 m2 m3
  refine { h with
    bankNN := mint_nonneg h.bankNN hm, bankSum := mint_supply h.bankSum hm, noSupply := ?_, activeSupply := ?_, escrow := ?_ }
  · intro id hid
    show b.supply _ = 0
    rw [m3, h.noSupply id hid, if_neg, add_zero]
    have := (h.poolIds pool hp).2.1
    intro e
    injection e with e
    have hid : s.lastPoolId < id := hid
    omega
  · intro p hp' hd
    show 0 < b.supply _
    rw [m3]
    have := h.activeSupply p hp' hd
    split <;> omega
  · intro d
    show _ ≤ b.bal .globalEscrow d
    rw [mint_keeps hm _ (by simp)]
    exact h.escrow d

theorem WF.newPool (h : WF s) {pair : Pair} {creator : Nat} {range : Option (Int × Int)} {amt : Int} {b : Bank}
    (hp : pair ∈ s.pairs)
    (hb : range = none → ∀ p ∈ s.pools, p.pairId = pair.id → p.range = none → p.disabled = true)
    (ha : 0 < amt) (hm : s.bank.mint ⟨.pool (s.lastPoolId + 1), amt⟩ = some b) :
    WF ({ s with lastPoolId := s.lastPoolId + 1, bank := b }.setPool (Dex.newPool (s.lastPoolId + 1) pair.id creator range)) := by
  obtain ⟨m1, m2, m3⟩ := mint_some hm
  simp only at m1 m2 m3
  have hfresh : ∀ x ∈ s.pools, x.key ≠ (Dex.newPool (s.lastPoolId + 1) pair.id creator range).key := by
    intro x hx e
    have := PoolRec.key_iff.1 e
    have := (h.poolIds x hx).2.1
    simp [Dex.newPool] at *
    omega
  have hm : ∀ x, x ∈ upsert PoolRec.key (Dex.newPool (s.lastPoolId + 1) pair.id creator range) s.pools ↔
      x = Dex.newPool (s.lastPoolId + 1) pair.id creator range ∨ x ∈ s.pools := by
    intro x
    rw [h.poolsS.mem_upsert]
    constructor
    · rintro (e | ⟨e, _⟩)
      · exact Or.inl e
      · exact Or.inr e
    · rintro (e | e)
      · exact Or.inl e
      · exact Or.inr ⟨e, hfresh x e⟩
  refine { h with
    poolsS := h.poolsS.upsert _, poolIds := ?_, poolAll := ?_, deps := ?_, wds := ?_,
    bankNN := mint_nonneg h.bankNN ‹_›, bankSum := mint_supply h.bankSum ‹_›, noSupply := ?_, activeSupply := ?_,
    escrow := ?_, basicUniq := ?_ }
  · intro x hx
    rcases (hm x).1 hx with rfl | e
    · exact ⟨by show 1 ≤ s.lastPoolId + 1; omega, le_refl _, pair, hp, rfl⟩
    · obtain ⟨a, b, c⟩ := h.poolIds x e
      exact ⟨a, by show x.id ≤ s.lastPoolId + 1; omega, c⟩
  · intro id h1 h2
    have h2 : id ≤ s.lastPoolId + 1 := h2
    by_cases e : id = s.lastPoolId + 1
    · exact ⟨_, (hm _).2 (Or.inl rfl), e.symm⟩
    · obtain ⟨p, hp, e⟩ := h.poolAll id h1 (by omega)
      exact ⟨p, (hm p).2 (Or.inr hp), e⟩
  · intro r hr
    obtain ⟨a, ⟨q, hq, c⟩, d⟩ := h.deps r hr
    exact ⟨a, ⟨q, (hm q).2 (Or.inr hq), c⟩, d⟩
  · intro r hr
    obtain ⟨a, ⟨q, hq, c⟩, d⟩ := h.wds r hr
    exact ⟨a, ⟨q, (hm q).2 (Or.inr hq), c⟩, d⟩
  · intro id hid
    have hid : s.lastPoolId + 1 < id := hid
    show b.supply _ = 0
    rw [m3, h.noSupply id (by omega), if_neg, add_zero]
    intro e
    injection e with e
    omega
  · intro p hp' hd
    show 0 < b.supply _
    rw [m3]
    rcases (hm p).1 hp' with rfl | e
    · rw [show (Dex.newPool (s.lastPoolId + 1) pair.id creator range).id = s.lastPoolId + 1 from rfl, if_pos rfl,
        h.noSupply _ (by omega)]
      omega
    · have := h.activeSupply p e hd
      split <;> omega
  · intro d
    show _ ≤ b.bal .globalEscrow d
    rw [mint_keeps ‹_› _ (by simp)]
    exact h.escrow d
  · intro x hx y hy e1 e2 e3 e4 e5
    rcases (hm x).1 hx with rfl | e <;> rcases (hm y).1 hy with rfl | e'
    · rfl
    · have := hb e2 y e' e1.symm e3
      rw [this] at e5; cases e5
    · have := hb e3 x e e1 e2
      rw [this] at e4; cases e4
    · exact h.basicUniq x e y e' e1 e2 e3 e4 e5

theorem WF.burn (h : WF s) {pool : PoolRec} {amt : Int} {b : Bank} (hp : pool ∈ s.pools)
    (hm : s.bank.burn ⟨.pool pool.id, amt⟩ = some b) :
    WF (if amt = s.bank.supply (.pool pool.id) then { s with bank := b }.markDisabled pool else { s with bank := b }) := by
  obtain ⟨m1, m2, m3, m4⟩ := burn_some hm
  simp only at m1 m2 m3 m4
  have hle := bal_le_supply h.bankNN h.bankSum .dexModule (.pool pool.id)
  -- first mark, then burn
  have key : ∀ t : State, WF t → t.bank = s.bank → t.lastPoolId = s.lastPoolId → pool.id ≤ t.lastPoolId →
      (amt = s.bank.supply (.pool pool.id) → ∀ p ∈ t.pools, p.id = pool.id → p.disabled = true) →
      WF { t with bank := b } := by
    intro t ht hb hl hle' hdis
    refine { ht with
      bankNN := burn_nonneg h.bankNN hm, bankSum := burn_supply h.bankSum hm, noSupply := ?_, activeSupply := ?_, escrow := ?_ }
    · intro id hid
      have hid : t.lastPoolId < id := hid
      show b.supply _ = 0
      rw [m4, h.noSupply id (by omega), if_neg, sub_zero]
      intro e
      injection e with e
      omega
    · intro p hp' hd
      show 0 < b.supply _
      have h1 := ht.activeSupply p hp' hd
      rw [hb] at h1
      rw [m4]
      split
      · rename_i e
        injection e with e
        have h2 : amt ≠ s.bank.supply (.pool pool.id) := by
          intro e2
          have := hdis e2 p hp' e
          rw [this] at hd; cases hd
        rw [e]
        omega
      · omega
    · intro d
      show _ ≤ b.bal .globalEscrow d
      rw [burn_keeps hm _ (by simp)]
      have := ht.escrow d
      rw [hb] at this
      exact this
  split
  · have hw : WF (s.markDisabled pool) :=
      h.setPool hp rfl rfl rfl (fun e => by cases e) (le_refl _) (le_refl _)
    refine key (s.markDisabled pool) hw rfl rfl (h.poolIds pool hp).2.1 ?_
    intro _ p hp' e
    rcases (h.mem_setPool (p' := { pool with disabled := true }) hp rfl).1 hp' with rfl | ⟨e1, e2⟩
    · rfl
    · exact absurd (h.key_pool e1 hp e) e2
  · rename_i hne
    exact key s h rfl rfl (h.poolIds pool hp).2.1 (fun e => absurd e hne)

theorem WF.newDeposit (h : WF s) {pool : PoolRec} {r : DepReq} {b : Bank} (hp : pool ∈ s.pools)
    (hbs : BankStep s.bank b) (hb : ∀ d, b.bal .globalEscrow d = s.bank.bal .globalEscrow d + amountOf r.coins d)
    (hid : r.id = pool.lastDepositId + 1) (hpid : r.poolId = pool.id) (hacc : r.accepted = []) (hst : r.status = .notExecuted)
    (hpos : ∀ c ∈ r.coins, 0 < c.amt) (hnd : (r.coins.map (·.denom)).Nodup) :
    WF (({ s with bank := b }.setPool { pool with lastDepositId := pool.lastDepositId + 1 }).setDeposit r) := by
  have hg : KeepsEscrow s.bank b := fun d => by
    rw [hb d]
    have := amountOf_nonneg (cs := r.coins) (fun c hc => le_of_lt (hpos c hc)) d
    omega
  have h1 := (h.setBank hbs hg).setPool (p := pool) (p' := { pool with lastDepositId := pool.lastDepositId + 1 }) hp rfl rfl rfl
    (fun e => e) (by simp) (le_refl _)
  have hfresh : ∀ x ∈ s.deposits, x.key ≠ r.key := by
    intro x hx e
    obtain ⟨_, ⟨q, hq, e1, e2⟩, _⟩ := h.deps x hx
    simp only [DepReq.key, Prod.mk.injEq] at e
    have : q = pool := h.key_pool hq hp (by rw [e1, e.1, hpid])
    subst this
    omega
  refine { h1 with depsS := h.depsS.upsert r, deps := ?_, escrow := ?_ }
  · intro x hx
    rcases mem_upsert_of hx with rfl | hx
    · exact ⟨by omega, ⟨{ pool with lastDepositId := pool.lastDepositId + 1 },
        ((h.setBank hbs hg).mem_setPool (p := pool) (p' := { pool with lastDepositId := pool.lastDepositId + 1 }) hp rfl).2
          (Or.inl rfl), hpid.symm, by rw [hid]⟩, hpos, hnd, fun _ => hacc⟩
    · exact h1.deps x hx
  · intro d
    show pendingDeposits (upsert DepReq.key r s.deposits) d + pendingWithdraws s.withdraws d ≤ b.bal .globalEscrow d
    unfold pendingDeposits
    rw [sum_upsert_new h.depsS r _ hfresh, if_pos hst, hb d]
    have := h.escrow d
    unfold pendingDeposits at this
    omega

theorem WF.newWithdraw (h : WF s) {pool : PoolRec} {r : WdReq} {b : Bank} (hp : pool ∈ s.pools)
    (hbs : BankStep s.bank b) (hb : ∀ d, b.bal .globalEscrow d = s.bank.bal .globalEscrow d + amountOf [r.coin] d)
    (hid : r.id = pool.lastWithdrawId + 1) (hpid : r.poolId = pool.id) (hst : r.status = .notExecuted)
    (hden : r.coin.denom = .pool pool.id) (hpos : 0 < r.coin.amt) :
    WF (({ s with bank := b }.setPool { pool with lastWithdrawId := pool.lastWithdrawId + 1 }).setWithdraw r) := by
  have hg : KeepsEscrow s.bank b := fun d => by
    rw [hb d]
    have := amountOf_nonneg (cs := [r.coin]) (fun c hc => by simp at hc; subst hc; omega) d
    omega
  have h1 := (h.setBank hbs hg).setPool (p := pool) (p' := { pool with lastWithdrawId := pool.lastWithdrawId + 1 }) hp rfl rfl rfl
    (fun e => e) (le_refl _) (by simp)
  have hfresh : ∀ x ∈ s.withdraws, x.key ≠ r.key := by
    intro x hx e
    obtain ⟨_, ⟨q, hq, e1, e2⟩, _⟩ := h.wds x hx
    simp only [WdReq.key, Prod.mk.injEq] at e
    have : q = pool := h.key_pool hq hp (by rw [e1, e.1, hpid])
    subst this
    omega
  refine { h1 with wdsS := h.wdsS.upsert r, wds := ?_, escrow := ?_ }
  · intro x hx
    rcases mem_upsert_of hx with rfl | hx
    · exact ⟨by omega, ⟨{ pool with lastWithdrawId := pool.lastWithdrawId + 1 },
        ((h.setBank hbs hg).mem_setPool (p := pool) (p' := { pool with lastWithdrawId := pool.lastWithdrawId + 1 }) hp rfl).2
          (Or.inl rfl), hpid.symm, by rw [hid]⟩, hpos, by rw [hpid]; exact hden⟩
    · exact h1.wds x hx
  · intro d
    show pendingDeposits s.deposits d + pendingWithdraws (upsert WdReq.key r s.withdraws) d ≤ b.bal .globalEscrow d
    unfold pendingWithdraws
    rw [sum_upsert_new h.wdsS r _ hfresh, if_pos hst, hb d]
    have := h.escrow d
    unfold pendingWithdraws at this
    omega

theorem WF.finDeposit (h : WF s) {r r' : DepReq} {b : Bank} (hr : r ∈ s.deposits) (hst : r.status = .notExecuted)
    (hst' : r'.status ≠ .notExecuted)
    (hs : r'.id = r.id ∧ r'.poolId = r.poolId ∧ r'.msgHeight = r.msgHeight ∧ r'.depositor = r.depositor ∧ r'.coins = r.coins)
    (hbs : BankStep s.bank b) (hb : ∀ d, s.bank.bal .globalEscrow d - amountOf r.coins d ≤ b.bal .globalEscrow d) :
    WF ({ s with bank := b }.setDeposit r') := by
  have hk : r'.key = r.key := by simp [DepReq.key, hs]
  refine { h with
    depsS := h.depsS.upsert r', deps := ?_, escrow := ?_, bankNN := hbs.nonneg h.bankNN, bankSum := hbs.sum h.bankSum
    noSupply := fun id hid => by show b.supply _ = 0; rw [hbs.supply]; exact h.noSupply id hid
    activeSupply := fun p hp hd => by show 0 < b.supply _; rw [hbs.supply]; exact h.activeSupply p hp hd }
  · intro x hx
    rcases mem_upsert_of hx with rfl | hx
    · obtain ⟨a1, a2, a3, a4, a5⟩ := h.deps r hr
      rw [hs.1, hs.2.1, hs.2.2.2.2]
      exact ⟨a1, a2, a3, a4, fun e => absurd e hst'⟩
    · exact h.deps x hx
  · intro d
    show pendingDeposits (upsert DepReq.key r' s.deposits) d + pendingWithdraws s.withdraws d ≤ b.bal .globalEscrow d
    unfold pendingDeposits
    rw [sum_upsert_old h.depsS r' r _ hr hk, if_pos hst, if_neg hst']
    have := h.escrow d
    have := hb d
    unfold pendingDeposits at *
    omega

theorem WF.finWithdraw (h : WF s) {r r' : WdReq} {b : Bank} (hr : r ∈ s.withdraws) (hst : r.status = .notExecuted)
    (hst' : r'.status ≠ .notExecuted)
    (hs : r'.id = r.id ∧ r'.poolId = r.poolId ∧ r'.msgHeight = r.msgHeight ∧ r'.withdrawer = r.withdrawer ∧ r'.coin = r.coin)
    (hbs : BankStep s.bank b) (hb : ∀ d, s.bank.bal .globalEscrow d - amountOf [r.coin] d ≤ b.bal .globalEscrow d) :
    WF ({ s with bank := b }.setWithdraw r') := by
  have hk : r'.key = r.key := by simp [WdReq.key, hs]
  refine { h with
    wdsS := h.wdsS.upsert r', wds := ?_, escrow := ?_, bankNN := hbs.nonneg h.bankNN, bankSum := hbs.sum h.bankSum
    noSupply := fun id hid => by show b.supply _ = 0; rw [hbs.supply]; exact h.noSupply id hid
    activeSupply := fun p hp hd => by show 0 < b.supply _; rw [hbs.supply]; exact h.activeSupply p hp hd }
  · intro x hx
    rcases mem_upsert_of hx with rfl | hx
    · obtain ⟨a1, a2, a3, a4⟩ := h.wds r hr
      rw [hs.1, hs.2.1, hs.2.2.2.2]
      exact ⟨a1, a2, a3, a4⟩
    · exact h.wds x hx
  · intro d
    show pendingDeposits s.deposits d + pendingWithdraws (upsert WdReq.key r' s.withdraws) d ≤ b.bal .globalEscrow d
    unfold pendingWithdraws
    rw [sum_upsert_old h.wdsS r' r _ hr hk, if_pos hst, if_neg hst']
    have := h.escrow d
    have := hb d
    unfold pendingWithdraws at *
    omega

theorem WF.getNumMM (h : WF s) (a p : Nat) : s.getNumMM a p = liveMM s.orders a p := by
  unfold State.getNumMM
  rw [h.mm a p]
  split <;> simp_all

theorem WF.newOrder (h : WF s) {pair : Pair} {o : OrderRec} {b : Bank} (hp : pair ∈ s.pairs) (hbs : BankStep s.bank b)
    (hg : KeepsEscrow s.bank b) (hid : o.id = pair.lastOrderId + 1) (hpid : o.pairId = pair.id)
    (hbid : o.batchId = pair.batchId) (hst : o.status = .notExecuted) (hrem : 0 ≤ o.remaining) (hpr : 0 < o.price)
    (hoff : o.offerDenom = pair.offerDenom o.dir) (hdem : o.demandDenom = pair.demandDenom o.dir) :
    WF ((({ s with bank := b }.setPair { pair with lastOrderId := pair.lastOrderId + 1 }).setOrder o).incMM o) := by
  have h1 := (h.setBank hbs hg).setPair (p := pair) (p' := { pair with lastOrderId := pair.lastOrderId + 1 }) hp rfl rfl rfl
    (le_refl _) (by simp) (fun _ _ _ _ => rfl)
  have hfresh : ∀ x ∈ s.orders, x.key ≠ o.key := by
    intro x hx e
    obtain ⟨_, _, q, hq, e1, e2, _⟩ := h.ords x hx
    simp only [OrderRec.key, Prod.mk.injEq] at e
    have : q = pair := h.key_pair hq hp (by rw [e1, e.1, hpid])
    subst this
    omega
  have hcnt : ∀ a p, liveMM (upsert OrderRec.key o s.orders) a p =
      liveMM s.orders a p + if (o.typ = .mm ∧ o.orderer = a ∧ o.pairId = p) then 1 else 0 := by
    intro a p
    unfold liveMM
    rw [countP_upsert_new h.ordersS o _ hfresh]
    have : o.done = false := by simp [OrderRec.done, hst, OStatus.shouldBeDeleted, OStatus.isCanceledOrExpired]
    simp [this, and_assoc]
  have hmm : ∀ a p, (((({ s with bank := b }.setPair { pair with lastOrderId := pair.lastOrderId + 1 }).setOrder o).incMM o).numMM a p) =
      if liveMM (upsert OrderRec.key o s.orders) a p = 0 then none else some (liveMM (upsert OrderRec.key o s.orders) a p) := by
    intro a p
    rw [hcnt]
    unfold State.incMM
    split
    · rename_i ht
      show (if a = o.orderer ∧ p = o.pairId then some (s.getNumMM o.orderer o.pairId + 1) else s.numMM a p) = _
      rw [h.getNumMM]
      split
      · rename_i e
        obtain ⟨rfl, rfl⟩ := e
        rw [if_neg (by simp [ht])]
        simp [ht]
      · rename_i e
        have hz : (if o.typ = OType.mm ∧ o.orderer = a ∧ o.pairId = p then 1 else 0) = 0 :=
          if_neg (fun e2 => e ⟨e2.2.1.symm, e2.2.2.symm⟩)
        rw [hz]
        exact h.mm a p
    · rename_i ht
      have hz : (if o.typ = OType.mm ∧ o.orderer = a ∧ o.pairId = p then 1 else 0) = 0 := if_neg (fun e => ht e.1)
      rw [hz]
      exact h.mm a p
  have aux : ∀ f : Nat → Nat → Option Nat,
      (∀ a p, f a p = if liveMM (upsert OrderRec.key o s.orders) a p = 0 then none else some (liveMM (upsert OrderRec.key o s.orders) a p)) →
      WF { (({ s with bank := b }.setPair { pair with lastOrderId := pair.lastOrderId + 1 }).setOrder o) with numMM := f } := by
    intro f hf
    refine { h1 with ordersS := h.ordersS.upsert o, ords := ?_, ordsOk := ?_, mm := hf }
    rotate_left
    · intro x hx
      rcases mem_upsert_of hx with rfl | hx
      · exact ⟨hrem, hpr, { pair with lastOrderId := pair.lastOrderId + 1 },
          ((h.setBank hbs hg).mem_setPair (p := pair) (p' := { pair with lastOrderId := pair.lastOrderId + 1 }) hp rfl).2
          (Or.inl rfl), hpid.symm, hoff, hdem⟩
      · exact h1.ordsOk x hx
    intro x hx
    rcases mem_upsert_of hx with rfl | hx
    · refine ⟨by omega, by rw [hbid]; exact (h.pairNe pair hp).2, { pair with lastOrderId := pair.lastOrderId + 1 },
        ((h.setBank hbs hg).mem_setPair (p := pair) (p' := { pair with lastOrderId := pair.lastOrderId + 1 }) hp rfl).2
          (Or.inl rfl), hpid.symm, by rw [hid], ?_, ?_⟩
      · show _ ≤ pair.batchId; omega
      · intro _; exact hbid
    · exact h1.ords x hx
  have := aux _ hmm
  unfold State.incMM at this ⊢
  split
  · rename_i e; rw [if_pos e] at this; exact this
  · rename_i e; rw [if_neg e] at this; exact this

theorem WF.finOrder (h : WF s) {o o' : OrderRec} {b : Bank} (ho : o ∈ s.orders) (hd : o.done = false) (hd' : o'.done = true)
    (hs : SameOrder o o') (hrem : 0 ≤ o'.remaining) (hbs : BankStep s.bank b) (hg : KeepsEscrow s.bank b) :
    WF (({ s with bank := b }.setOrder o').decMM o') := by
  have h1 := h.setBank hbs hg
  have hm := fun x => h1.mem_setOrder (x := x) ho hs.key
  have hcnt : ∀ a p, liveMM (upsert OrderRec.key o' s.orders) a p +
      (if (o'.typ = .mm ∧ o'.orderer = a ∧ o'.pairId = p) then 1 else 0) = liveMM s.orders a p := by
    intro a p
    have := countP_upsert_old h.ordersS o' o (fun o => o.typ == .mm && !o.done && o.orderer == a && o.pairId == p) ho hs.key
    unfold SameOrder at hs
    simp only [hd, hd', ← hs.1, ← hs.2.2.1, ← hs.2.2.2.2.1] at this
    unfold liveMM
    simp only [and_assoc, Bool.not_false, Bool.and_true, Bool.not_true, Bool.and_false, Bool.false_and, Bool.false_eq_true,
      if_false, add_zero, Bool.and_eq_true, beq_iff_eq] at this
    exact this
  have hst : o'.status ≠ .notExecuted := by
    intro e; simp [OrderRec.done, e, OStatus.shouldBeDeleted, OStatus.isCanceledOrExpired] at hd'
  have aux : ∀ f : Nat → Nat → Option Nat,
      (∀ a p, f a p = if liveMM (upsert OrderRec.key o' s.orders) a p = 0 then none else some (liveMM (upsert OrderRec.key o' s.orders) a p)) →
      WF { ({ s with bank := b }.setOrder o') with numMM := f } := by
    intro f hf
    refine { h1 with ordersS := h.ordersS.upsert o', ords := ?_, ordsOk := ?_, mm := hf }
    rotate_left
    · intro x hx
      rcases (hm x).1 hx with rfl | ⟨e, _⟩
      · obtain ⟨a, b, q, hq, e1, e2, e3⟩ := h.ordsOk o ho
        unfold SameOrder at hs
        exact ⟨hrem, by rw [hs.2.2.2.2.2.2.2.2.2.1]; exact b, q, hq, by rw [hs.2.2.1]; exact e1,
          by rw [hs.2.2.2.2.2.2.1, hs.2.2.2.2.2.1]; exact e2, by rw [hs.2.2.2.2.2.2.2.1, hs.2.2.2.2.2.1]; exact e3⟩
      · exact h.ordsOk x e
    intro x hx
    rcases (hm x).1 hx with rfl | ⟨e, _⟩
    · obtain ⟨a, b, q, hq, e1, e2, e3, e4⟩ := h.ords o ho
      unfold SameOrder at hs
      rw [hs.2.1, hs.2.2.1, hs.2.2.2.2.2.2.2.2.2.2.2.1]
      exact ⟨a, b, q, hq, e1, e2, e3, fun hc => absurd hc hst⟩
    · exact h.ords x e
  unfold State.decMM
  split
  · rename_i ht
    apply aux
    intro a p
    show (if a = o'.orderer ∧ p = o'.pairId then
      (if s.getNumMM o'.orderer o'.pairId ≤ 1 then none else some (s.getNumMM o'.orderer o'.pairId - 1)) else s.numMM a p) = _
    rw [h.getNumMM]
    have hc := hcnt a p
    split
    · rename_i e
      obtain ⟨rfl, rfl⟩ := e
      rw [if_pos ⟨ht, rfl, rfl⟩] at hc
      rw [← hc]
      by_cases hz : liveMM (upsert OrderRec.key o' s.orders) o'.orderer o'.pairId = 0
      · rw [hz]; simp
      · rw [if_neg hz, if_neg (by omega), Nat.add_sub_cancel]
    · rename_i e
      rw [if_neg (fun e2 => e ⟨e2.2.1.symm, e2.2.2.symm⟩), add_zero] at hc
      rw [hc]
      exact h.mm a p
  · rename_i ht
    apply aux
    intro a p
    have hc := hcnt a p
    rw [if_neg (fun e => ht e.1), add_zero] at hc
    rw [hc]
    exact h.mm a p

theorem atom_wf {s s' : State} (h : WF s) (ha : Atom s s') : WF s' := by
  cases ha with
  | bank b hb hg => exact h.setBank hb hg
  | newPair base quote hne hu => exact h.newPair hne hu
  | nextBatch pair lp g hp ho =>
    have h' : WF { s with shortfall := g } := { h with }
    exact h'.setPair (p := pair) hp rfl rfl rfl (by simp) (le_refl _) (fun o hoo e1 e2 => absurd e2 (ho o hoo e1))
  | newPool pair creator range amt b hp hb hcap ha hm => exact h.newPool hp hb ha hm
  | disablePool pool hp => exact h.setPool hp rfl rfl rfl (fun e => by cases e) (le_refl _) (le_refl _)
  | mint pool amt b hp ha hm => exact h.mint hp hm
  | burn pool amt b hp ha hm => exact h.burn hp hm
  | newDeposit pool r b hp ha hbs hb hid hpid hacc hst hpos hnd hh => exact h.newDeposit hp hbs hb hid hpid hacc hst hpos hnd
  | newWithdraw pool r b hp ha hbs hb hid hpid hst hden hpos hh => exact h.newWithdraw hp hbs hb hid hpid hst hden hpos
  | finDeposit r r' b hr hst hst' hs hbs hb => exact h.finDeposit hr hst hst' hs hbs hb
  | finWithdraw r r' b hr hst hst' hs hbs hb => exact h.finWithdraw hr hst hst' hs hbs hb
  | newOrder pair o b hp hbs hg hid hpid hbid hst hopen hrem hpr hoff hdem hcap =>
    exact h.newOrder hp hbs hg hid hpid hbid hst hrem hpr hoff hdem
  | updOrder o o' ho hd hst hs hrem =>
    refine h.setOrder_live ho hs ?_ ?_ hrem
    · rw [hd]
      rcases hst with e | e <;> simp [OrderRec.done, e, OStatus.shouldBeDeleted, OStatus.isCanceledOrExpired]
    · rcases hst with e | e <;> simp [e]
  | finOrder o o' b ho hd hd' hs hrem hbs hg => exact h.finOrder ho hd hd' hs hrem hbs hg

theorem reach_wf {s s' : State} (h : WF s) (hr : Reach s s') : WF s' := by
  induction hr with
  | refl => exact h
  | tail _ ha ih => exact atom_wf ih ha

/-- Any transitive relation respected by the elementary changes is respected by `Reach`. -/
theorem reach_rel {R : State → State → Prop} (hrefl : ∀ s, R s s) (htrans : ∀ a b c, R a b → R b c → R a c)
    (hatom : ∀ a b, WF a → Atom a b → R a b) {s s' : State} (h : WF s) (hr : Reach s s') : R s s' := by
  induction hr with
  | refl => exact hrefl _
  | tail h1 ha ih => exact htrans _ _ _ ih (hatom _ _ (reach_wf h h1) ha)

end Verif.Dex

import Verif.Proofs.Genesis
import Verif.Proofs.Decompose
/-! # Genesis validation as a specification, and the import of a valid genesis (C47) -/
namespace Verif.Dex
open Verif Verif.Amm Verif.Spec

theorem positiveCoins_iff (cs : Coins) : coinsValid cs = true ↔ PositiveCoins cs := by
  rw [coinsValid_iff]
  unfold PositiveCoins List.Nodup
  rw [List.pairwise_map]

theorem params_valid_iff (p : Params) : p.validate = true ↔ ParamsValid p := by
  unfold Params.validate
  simp only [Bool.and_eq_true, decide_eq_true_eq, positiveCoins_iff]
  constructor
  · rintro ⟨⟨⟨⟨⟨⟨⟨⟨a, b⟩, c⟩, d⟩, e⟩, f⟩, g⟩, h⟩, i⟩
    exact ⟨a, b, c, d, e, f, g, h, i⟩
  · rintro ⟨a, b, c, d, e, f, g, h, i⟩
    exact ⟨⟨⟨⟨⟨⟨⟨⟨a, b⟩, c⟩, d⟩, e⟩, f⟩, g⟩, h⟩, i⟩

/-- Looking up a pair that occurs once. -/
theorem lookup_exists {α : Type} {key : α → Key} {l : List α} (hn : l.Pairwise (fun a b => key a ≠ key b)) (k : Key) (P : α → Prop) :
    (∃ x, lookup key k l = some x ∧ P x) ↔ ∃ x ∈ l, key x = k ∧ P x := by
  unfold lookup
  induction l with
  | nil => simp
  | cons a l ih =>
    rw [List.pairwise_cons] at hn
    rw [List.find?_cons]
    by_cases h : key a = k
    · have : (key a == k) = true := by simp [h]
      rw [this]
      constructor
      · rintro ⟨x, hx, hp⟩
        cases hx
        exact ⟨a, by simp, h, hp⟩
      · rintro ⟨x, hx, hk, hp⟩
        rcases List.mem_cons.1 hx with rfl | hx
        · exact ⟨x, rfl, hp⟩
        · exact absurd (h.trans hk.symm) (hn.1 x hx)
    · have : (key a == k) = false := by simp [h]
      rw [this]
      simp only
      rw [ih hn.2]
      constructor
      · rintro ⟨x, hx, hp⟩; exact ⟨x, by simp [hx], hp⟩
      · rintro ⟨x, hx, hk, hp⟩
        rcases List.mem_cons.1 hx with rfl | hx
        · exact absurd hk h
        · exact ⟨x, hx, hk, hp⟩

theorem keys_nodup {α : Type} (key : α → Key) (l : List α) : (l.map key).Nodup ↔ l.Pairwise (fun a b => key a ≠ key b) := by
  unfold List.Nodup; rw [List.pairwise_map]

theorem all_iff {α : Type} {l : List α} {f : α → Bool} {P : α → Prop} (h : ∀ x, f x = true ↔ P x) : l.all f = true ↔ ∀ x ∈ l, P x := by
  rw [List.all_eq_true]
  exact forall₂_congr (fun x _ => h x)

theorem key_ne_single (a b : Nat) : ((a, 0) : Key) ≠ (b, 0) ↔ a ≠ b := by simp
theorem key_ne_pair (a b c d : Nat) : ((a, b) : Key) ≠ (c, d) ↔ ¬ (a = c ∧ b = d) := by simp

theorem genesis_valid_iff (g : GenesisState) : g.validate = true ↔ GenesisValid g := by
  unfold GenesisState.validate
  simp only [Bool.and_eq_true, decide_eq_true_eq, params_valid_iff, keys_nodup]
  -- the parts that do not depend on others
  have hpair : ∀ p : Pair, (p.valid && decide (p.id ≤ g.lastPairId)) = true ↔
      (1 ≤ p.id ∧ p.id ≤ g.lastPairId ∧ 1 ≤ p.batchId ∧ ∀ x, p.lastPrice = some x → 0 < x) := by
    intro p
    unfold Pair.valid
    cases hl : p.lastPrice with
    | none => simp; omega
    | some x => simp; omega
  by_cases hn1 : g.pairs.Pairwise (fun p q => Pair.key p ≠ Pair.key q)
  swap
  · constructor
    · rintro ⟨⟨⟨⟨⟨⟨⟨⟨⟨⟨⟨_, _⟩, h⟩, _⟩, _⟩, _⟩, _⟩, _⟩, _⟩, _⟩, _⟩, _⟩; exact absurd h hn1
    · intro h; exact absurd (h.pairIds.imp (fun {a b} e => (key_ne_single _ _).2 e)) hn1
  by_cases hn2 : g.pools.Pairwise (fun p q => PoolRec.key p ≠ PoolRec.key q)
  swap
  · constructor
    · rintro ⟨⟨⟨⟨⟨⟨⟨⟨⟨⟨⟨_, _⟩, _⟩, _⟩, h⟩, _⟩, _⟩, _⟩, _⟩, _⟩, _⟩, _⟩; exact absurd h hn2
    · intro h; exact absurd (h.poolIds.imp (fun {a b} e => (key_ne_single _ _).2 e)) hn2
  have lp : ∀ i (P : Pair → Prop), (∃ x, lookup Pair.key (i, 0) g.pairs = some x ∧ P x) ↔ ∃ x ∈ g.pairs, x.id = i ∧ P x := by
    intro i P
    rw [lookup_exists hn1]
    constructor
    · rintro ⟨x, h1, h2, h3⟩; exact ⟨x, h1, congrArg Prod.fst h2, h3⟩
    · rintro ⟨x, h1, h2, h3⟩; exact ⟨x, h1, by unfold Pair.key; rw [h2], h3⟩
  have lq : ∀ i (P : PoolRec → Prop), (∃ x, lookup PoolRec.key (i, 0) g.pools = some x ∧ P x) ↔ ∃ x ∈ g.pools, x.id = i ∧ P x := by
    intro i P
    rw [lookup_exists hn2]
    constructor
    · rintro ⟨x, h1, h2, h3⟩; exact ⟨x, h1, congrArg Prod.fst h2, h3⟩
    · rintro ⟨x, h1, h2, h3⟩; exact ⟨x, h1, by unfold PoolRec.key; rw [h2], h3⟩
  have hpool : ∀ p : PoolRec, (p.valid && decide (p.id ≤ g.lastPoolId) && (lookup Pair.key (p.pairId, 0) g.pairs).isSome) = true ↔
      (1 ≤ p.id ∧ p.id ≤ g.lastPoolId ∧ p.pairId ≠ 0 ∧ ∃ q ∈ g.pairs, q.id = p.pairId) := by
    intro p
    have e := lp p.pairId (fun _ => True)
    simp only [and_true] at e
    rw [← e, ← Option.isSome_iff_exists]
    unfold PoolRec.valid
    simp only [Bool.and_eq_true, bne_iff_ne, decide_eq_true_eq, ne_eq]
    constructor
    · rintro ⟨⟨⟨a, b⟩, c⟩, d⟩; exact ⟨by omega, c, b, d⟩
    · rintro ⟨a, c, b, d⟩; exact ⟨⟨⟨by omega, b⟩, c⟩, d⟩
  have hdep : ∀ r : DepReq, g.depositOk r = true ↔ (1 ≤ r.id ∧ r.poolId ≠ 0 ∧ 1 ≤ r.msgHeight ∧ PositiveCoins r.coins ∧ r.coins.length ≠ 0 ∧
      r.coins.length ≤ 2 ∧ PositiveCoins (withoutZero r.accepted) ∧ (withoutZero r.accepted).length ≤ 2 ∧
      (∀ c ∈ withoutZero r.accepted, amountOf r.coins c.denom ≠ 0) ∧ 0 ≤ r.minted ∧
      ∃ pool ∈ g.pools, pool.id = r.poolId ∧ ∃ pair ∈ g.pairs, pair.id = pool.pairId ∧
        amountOf r.coins pair.base ≠ 0 ∧ amountOf r.coins pair.quote ≠ 0) := by
    intro r
    have ez : nonzeroCoins r.accepted = withoutZero r.accepted := by unfold nonzeroCoins withoutZero; congr 1; funext c; by_cases h : c.amt = 0 <;> simp [h]
    have hm : g.depositOk r = true ↔ r.valid = true ∧
        ∃ pool ∈ g.pools, pool.id = r.poolId ∧ ∃ pair ∈ g.pairs, pair.id = pool.pairId ∧
          amountOf r.coins pair.base ≠ 0 ∧ amountOf r.coins pair.quote ≠ 0 := by
      unfold GenesisState.depositOk
      rw [← lq r.poolId (fun pool => ∃ pair ∈ g.pairs, pair.id = pool.pairId ∧
          amountOf r.coins pair.base ≠ 0 ∧ amountOf r.coins pair.quote ≠ 0)]
      rw [Bool.and_eq_true]
      refine and_congr Iff.rfl ?_
      cases lookup PoolRec.key (r.poolId, 0) g.pools with
      | none => simp
      | some pool =>
        simp only [Option.some.injEq, exists_eq_left']
        rw [← lp pool.pairId (fun pair => amountOf r.coins pair.base ≠ 0 ∧ amountOf r.coins pair.quote ≠ 0)]
        cases lookup Pair.key (pool.pairId, 0) g.pairs <;> simp
    rw [hm]
    unfold DepReq.valid
    rw [ez]
    simp only [Bool.and_eq_true, positiveCoins_iff, decide_eq_true_eq, bne_iff_ne, List.all_eq_true, ne_eq]
    have h1 : ∀ n : Nat, ¬ n = 0 ↔ 1 ≤ n := fun n => by omega
    constructor
    · rintro ⟨⟨⟨⟨⟨⟨⟨⟨⟨⟨a, b⟩, c⟩, d⟩, e⟩, f⟩, i⟩, j⟩, k⟩, l⟩, m⟩
      exact ⟨by omega, b, by omega, d, e, f, i, j, k, l, m⟩
    · rintro ⟨a, b, c, d, e, f, i, j, k, l, m⟩
      exact ⟨⟨⟨⟨⟨⟨⟨⟨⟨⟨by omega, b⟩, by omega⟩, d⟩, e⟩, f⟩, i⟩, j⟩, k⟩, l⟩, m⟩
  have hwd : ∀ r : WdReq, g.withdrawOk r = true ↔ (1 ≤ r.id ∧ r.poolId ≠ 0 ∧ 1 ≤ r.msgHeight ∧ 0 < r.coin.amt ∧
      PositiveCoins (withoutZero r.withdrawn) ∧ (withoutZero r.withdrawn).length ≤ 2 ∧
      ∃ pool ∈ g.pools, pool.id = r.poolId ∧ r.coin.denom = .pool pool.id) := by
    intro r
    have ez : nonzeroCoins r.withdrawn = withoutZero r.withdrawn := by unfold nonzeroCoins withoutZero; congr 1; funext c; by_cases h : c.amt = 0 <;> simp [h]
    have hm : g.withdrawOk r = true ↔ r.valid = true ∧
        ∃ pool ∈ g.pools, pool.id = r.poolId ∧ r.coin.denom = .pool pool.id := by
      unfold GenesisState.withdrawOk
      rw [← lq r.poolId (fun pool => r.coin.denom = .pool pool.id)]
      rw [Bool.and_eq_true]
      refine and_congr Iff.rfl ?_
      cases lookup PoolRec.key (r.poolId, 0) g.pools <;> simp
    rw [hm]
    unfold WdReq.valid
    rw [ez]
    simp only [Bool.and_eq_true, positiveCoins_iff, decide_eq_true_eq, bne_iff_ne, ne_eq]
    constructor
    · rintro ⟨⟨⟨⟨⟨⟨⟨a, b⟩, c⟩, d⟩, e⟩, f⟩, i⟩, m⟩
      exact ⟨by omega, b, by omega, by omega, f, i, m⟩
    · rintro ⟨a, b, c, d, f, i, m⟩
      exact ⟨⟨⟨⟨⟨⟨⟨by omega, b⟩, by omega⟩, by omega⟩, by omega⟩, f⟩, i⟩, m⟩
  have hord : ∀ o : OrderRec, g.orderOk o = true ↔ (1 ≤ o.id ∧ o.pairId ≠ 0 ∧ 1 ≤ o.msgHeight ∧ 0 < o.offer ∧ 0 ≤ o.remaining ∧
      0 ≤ o.received ∧ 0 < o.price ∧ 0 < o.amount ∧ 0 ≤ o.openAmt ∧ 1 ≤ o.batchId ∧ o.expireAt ≠ zeroTime ∧
      ∃ pair ∈ g.pairs, pair.id = o.pairId ∧ o.batchId ≤ pair.batchId ∧
        (o.dir = .buy → o.offerDenom = pair.quote ∧ o.demandDenom = pair.base) ∧
        (o.dir = .sell → o.offerDenom = pair.base ∧ o.demandDenom = pair.quote)) := by
    intro o
    have hm : g.orderOk o = true ↔ o.valid = true ∧
        ∃ pair ∈ g.pairs, pair.id = o.pairId ∧
          ((o.batchId ≤ pair.batchId ∧ o.offerDenom = pair.offerDenom o.dir) ∧ o.demandDenom = pair.demandDenom o.dir) := by
      unfold GenesisState.orderOk
      rw [← lp o.pairId (fun pair => (o.batchId ≤ pair.batchId ∧ o.offerDenom = pair.offerDenom o.dir) ∧ o.demandDenom = pair.demandDenom o.dir)]
      rw [Bool.and_eq_true]
      refine and_congr Iff.rfl ?_
      cases lookup Pair.key (o.pairId, 0) g.pairs <;> simp
    rw [hm]
    unfold OrderRec.valid
    simp only [Bool.and_eq_true, decide_eq_true_eq, bne_iff_ne, ne_eq]
    have hd : ∀ pair : Pair, ((o.batchId ≤ pair.batchId ∧ o.offerDenom = pair.offerDenom o.dir) ∧ o.demandDenom = pair.demandDenom o.dir) ↔
        (o.batchId ≤ pair.batchId ∧ (o.dir = .buy → o.offerDenom = pair.quote ∧ o.demandDenom = pair.base) ∧
        (o.dir = .sell → o.offerDenom = pair.base ∧ o.demandDenom = pair.quote)) := by
      intro pair
      cases o.dir <;> simp [Pair.offerDenom, Pair.demandDenom, and_assoc]
    simp only [hd]
    constructor
    · rintro ⟨⟨⟨⟨⟨⟨⟨⟨⟨⟨⟨⟨a, b⟩, c⟩, d⟩, e⟩, f⟩, i⟩, j⟩, k⟩, l⟩, n⟩, p⟩, m⟩
      exact ⟨by omega, b, by omega, by omega, f, i, j, k, l, by omega, p, m⟩
    · rintro ⟨a, b, c, d, f, i, j, k, l, n, p, m⟩
      exact ⟨⟨⟨⟨⟨⟨⟨⟨⟨⟨⟨⟨by omega, b⟩, by omega⟩, by omega⟩, by omega⟩, f⟩, i⟩, j⟩, k⟩, l⟩, by omega⟩, p⟩, m⟩
  rw [all_iff hpair, all_iff hpool, all_iff hdep, all_iff hwd, all_iff hord]
  constructor
  · rintro ⟨⟨⟨⟨⟨⟨⟨⟨⟨⟨⟨a, b⟩, c⟩, d⟩, e⟩, f⟩, i⟩, j⟩, k⟩, l⟩, m⟩, n⟩
    refine ⟨a, b, c.imp (fun {x y} e => (key_ne_single _ _).1 e), ?_, e.imp (fun {x y} e => (key_ne_single _ _).1 e), ?_,
      i.imp (fun {x y} e => (key_ne_pair _ _ _ _).1 e), ?_, k.imp (fun {x y} e => (key_ne_pair _ _ _ _).1 e), ?_,
      m.imp (fun {x y} e => (key_ne_pair _ _ _ _).1 e), ?_⟩
    · intro p hp; obtain ⟨x1, x2, x3, x4⟩ := d p hp; exact ⟨x1, x2, x4⟩
    · intro r hr
      obtain ⟨x1, x2, x3, x4, x5, x6⟩ := f r hr
      exact ⟨x1, x3, x4, x6⟩
    · intro r hr
      obtain ⟨x1, x2, x3, x4, x5, x6, pool, y1, y2, y3⟩ := j r hr
      exact ⟨x1, x3, x4, x5, x6, by rw [y3, y2], pool, y1, y2⟩
    · intro o ho
      obtain ⟨x1, x2, x3⟩ := l o ho
      exact ⟨x1, x3⟩
    · intro r hr
      have := List.all_eq_true.1 n r hr
      simp at this; omega
  · intro h
    refine ⟨⟨⟨⟨⟨⟨⟨⟨⟨⟨⟨h.params, h.pairs⟩, hn1⟩, ?_⟩, hn2⟩, ?_⟩, ?_⟩, ?_⟩, ?_⟩, ?_⟩, ?_⟩, ?_⟩
    · intro p hp
      obtain ⟨x1, x2, q, x3, x4⟩ := h.pools p hp
      have := (h.pairs q x3).1
      exact ⟨x1, x2, by omega, q, x3, x4⟩
    · intro r hr
      obtain ⟨x1, x3, x4, x6, x7, x8, x9, x10, pool, y1, y2, pair, z1, z2, z3, z4⟩ := h.deposits r hr
      have := (h.pools pool y1).1
      refine ⟨x1, by omega, x3, x4, ?_, x6, x7, x8, x9, x10, pool, y1, y2, pair, z1, z2, z3, z4⟩
      intro e
      rw [List.length_eq_zero_iff] at e
      rw [e] at z3
      simp [amountOf] at z3
    · exact h.depositIds.imp (fun {x y} e => (key_ne_pair _ _ _ _).2 e)
    · intro r hr
      obtain ⟨x1, x3, x4, x5, x6, x7, pool, y1, y2⟩ := h.withdraws r hr
      have := (h.pools pool y1).1
      exact ⟨x1, by omega, x3, x4, x5, x6, pool, y1, y2, by rw [x7, y2]⟩
    · exact h.withdrawIds.imp (fun {x y} e => (key_ne_pair _ _ _ _).2 e)
    · intro o ho
      obtain ⟨x1, x3, x4, x5, x6, x7, x8, x9, x10, x11, pair, y1, y2, y3⟩ := h.orders o ho
      have := (h.pairs pair y1).1
      exact ⟨x1, by omega, x3, x4, x5, x6, x7, x8, x9, x10, x11, pair, y1, y2, y3⟩
    · exact h.orderIds.imp (fun {x y} e => (key_ne_pair _ _ _ _).2 e)
    · rw [List.all_eq_true]
      intro r hr
      have := h.counters r hr
      simp; omega

theorem upsert_perm {α : Type} {key : α → Key} (v : α) {l : List α} (h : ∀ x ∈ l, key x ≠ key v) : (upsert key v l).Perm (v :: l) := by
  induction l with
  | nil => exact List.Perm.refl _
  | cons a l ih =>
    rw [upsert_cons, if_neg (h a (by simp))]
    by_cases hl : keyLt (key v) (key a) = true
    · rw [if_pos hl]
    · rw [if_neg hl]
      exact ((ih (fun x hx => h x (by simp [hx]))).cons a).trans (List.Perm.swap v a l)

theorem foldl_upsert_perm {α : Type} {key : α → Key} (l acc : List α) (hn : l.Pairwise (fun a b => key a ≠ key b))
    (hd : ∀ x ∈ acc, ∀ y ∈ l, key x ≠ key y) : (l.foldl (fun a v => upsert key v a) acc).Perm (acc ++ l) := by
  induction l generalizing acc with
  | nil => simp
  | cons v l ih =>
    rw [List.pairwise_cons] at hn
    have hp := upsert_perm (key := key) v (l := acc) (fun x hx => hd x hx v (by simp))
    rw [List.foldl_cons]
    refine (ih _ hn.2 ?_).trans ?_
    · intro x hx y hy
      rcases List.mem_cons.1 (hp.mem_iff.1 hx) with rfl | hx
      · exact hn.1 y hy
      · exact hd x hx y (by simp [hy])
    · refine (hp.append_right l).trans ?_
      rw [List.cons_append]
      exact List.perm_middle.symm

theorem initGenesis_spec {g : GenesisState} {s0 : State} (he : EmptyModule s0) (hv : GenesisValid g) (hc : CountersOnce g) :
    ∃ s', initGenesis g s0 = some s' ∧ Imported g s0 s' := by
  unfold initGenesis
  rw [if_neg (by rw [(genesis_valid_iff g).2 hv]; decide)]
  simp only [foldl_setPair, foldl_setPool, foldl_setDeposit, foldl_setWithdraw, foldl_setOrder,
    he.pairs, he.pools, he.deposits, he.withdraws, he.orders]
  refine ⟨_, rfl, ?_⟩
  obtain ⟨f, hf⟩ := foldl_numMM g.numMM { bank := s0.bank, params := g.params, lastPairId := g.lastPairId, lastPoolId := g.lastPoolId, pairs := g.pairs.foldl (fun a v => upsert Pair.key v a) [], pools := g.pools.foldl (fun a v => upsert PoolRec.key v a) [], deposits := g.deposits.foldl (fun a v => upsert DepReq.key v a) [], withdraws := g.withdraws.foldl (fun a v => upsert WdReq.key v a) [], orders := g.orders.foldl (fun a v => upsert OrderRec.key v a) [], numMM := s0.numMM, height := s0.height, time := s0.time, shortfall := s0.shortfall }
  have hnum : (g.numMM.map (fun r => (r.orderer, r.pairId))).Nodup := by
    unfold List.Nodup
    rw [List.pairwise_map]
    exact hc.imp (fun {a b} h e => h ⟨congrArg Prod.fst e, congrArg Prod.snd e⟩)
  refine ⟨by rw [hf], by rw [hf], by rw [hf], ?_, ?_, ?_, ?_, ?_, ?_, by rw [hf], by rw [hf], by rw [hf]⟩
  · rw [hf]
    simpa using foldl_upsert_perm (key := Pair.key) g.pairs [] (hv.pairIds.imp (fun {a b} e => (key_ne_single _ _).2 e)) (by simp)
  · rw [hf]
    simpa using foldl_upsert_perm (key := PoolRec.key) g.pools [] (hv.poolIds.imp (fun {a b} e => (key_ne_single _ _).2 e)) (by simp)
  · rw [hf]
    simpa using foldl_upsert_perm (key := DepReq.key) g.deposits [] (hv.depositIds.imp (fun {a b} e => (key_ne_pair _ _ _ _).2 e)) (by simp)
  · rw [hf]
    simpa using foldl_upsert_perm (key := WdReq.key) g.withdraws [] (hv.withdrawIds.imp (fun {a b} e => (key_ne_pair _ _ _ _).2 e)) (by simp)
  · rw [hf]
    simpa using foldl_upsert_perm (key := OrderRec.key) g.orders [] (hv.orderIds.imp (fun {a b} e => (key_ne_pair _ _ _ _).2 e)) (by simp)
  · intro a p n
    constructor
    · intro h
      by_contra hn
      by_cases hx : ∃ r ∈ g.numMM, r.orderer = a ∧ r.pairId = p
      · obtain ⟨r, hr, rfl, rfl⟩ := hx
        rw [foldl_numMM_mem g.numMM _ hnum hr] at h
        obtain rfl := Option.some.inj h
        exact hn hr
      · rw [foldl_numMM_other g.numMM _ a p (fun r hr e => hx ⟨r, hr, e⟩)] at h
        have h : s0.numMM a p = some n := h
        rw [he.numMM] at h; cases h
    · intro h
      exact foldl_numMM_mem g.numMM _ hnum (r := ⟨a, p, n⟩) h

end Verif.Dex

import Verif.Proofs.AtomWF
import Verif.Proofs.MatchKind
import Verif.Proofs.Order
/-! # Every message handler and every pass of the end blocker is a sequence of elementary changes -/
namespace Verif.Dex
open Verif Verif.Amm Verif.Spec

theorem keeps_send {b b' : Bank} {src dst : Addr} {cs : Coins} (h : b.send src dst cs = some b') (hs : src ≠ .globalEscrow) :
    KeepsEscrow b b' := fun d => send_mono h (Ne.symm hs) d

theorem KeepsEscrow.trans {a b c : Bank} (h : KeepsEscrow a b) (h' : KeepsEscrow b c) : KeepsEscrow a c :=
  fun d => le_trans (h d) (h' d)

theorem KeepsEscrow.refl (a : Bank) : KeepsEscrow a a := fun _ => le_refl _

variable {s s' : State}

theorem Reach.single {s s' : State} (h : Atom s s') : Reach s s' := Relation.ReflTransGen.single h

theorem reach_bank {b : Bank} (h : BankStep s.bank b) (hg : KeepsEscrow s.bank b) : Reach s { s with bank := b } :=
  Reach.single (.bank b h hg)

theorem createPair_reach {m : MsgCreatePair} (hv : m.validateBasic = true) (h : createPair m s = some s') : Reach s s' := by
  unfold createPair at h
  split at h
  · cases h
  · rename_i hu
    split at h
    · cases h
    · rename_i b hb
      have h := Option.some.inj h
      subst h
      refine (reach_bank (bankStep_send hb) (keeps_send hb (by simp))).tail ?_
      have hne : m.base ≠ m.quote := by simpa [MsgCreatePair.validateBasic] using hv
      exact Atom.newPair (s := { s with bank := b }) m.base m.quote hne hu

theorem createPoolBank_reach {t : State} {pair : Pair} {creator : Nat} {range : Option (Int × Int)} {coins : Coins}
    {amt : Int} {b : Bank} (hp : pair ∈ t.pairs)
    (hb : range = none → ∀ p ∈ t.pools, p.pairId = pair.id → p.range = none → p.disabled = true)
    (hcap : t.numActivePools pair.id < t.params.maxNumActivePools) (ha : 0 < amt)
    (h : createPoolBank ({ t with lastPoolId := t.lastPoolId + 1 }.setPool (newPool (t.lastPoolId + 1) pair.id creator range))
      creator (t.lastPoolId + 1) coins amt = some b) :
    Reach t { ({ t with lastPoolId := t.lastPoolId + 1 }.setPool (newPool (t.lastPoolId + 1) pair.id creator range)) with bank := b } := by
  unfold createPoolBank at h
  simp only [Option.bind_eq_some_iff] at h
  obtain ⟨b1, h1, b2, h2, b3, h3, h4⟩ := h
  have e1 : t.bank.send (.user creator) (.poolReserve (t.lastPoolId + 1)) coins = some b1 := h1
  refine Relation.ReflTransGen.tail (Relation.ReflTransGen.tail (reach_bank (b := b2) ((bankStep_send e1).trans (bankStep_send h2))
    ((keeps_send e1 (by simp)).trans (keeps_send h2 (by simp)))) (Atom.newPool (s := { t with bank := b2 }) pair creator range amt b3 hp hb hcap ha h3)) ?_
  exact Atom.bank b (bankStep_send h4) (keeps_send h4 (by simp))

theorem validateCreatePool_some {m : MsgCreatePool} {pair : Pair} (h : validateCreatePool m s = some pair) :
    s.getPair m.pairId = some pair ∧ coinsInPair pair m.coins = true ∧
    (∀ c ∈ m.coins, s.params.minInitialDepositAmount ≤ c.amt) ∧
    (∀ p ∈ s.pools, p.pairId = pair.id → p.range = none → p.disabled = true) ∧
    s.numActivePools pair.id < s.params.maxNumActivePools := by
  unfold validateCreatePool at h
  split at h
  · cases h
  · rename_i q hq
    split at h
    · cases h
    · rename_i h1
      split at h
      · cases h
      · rename_i h2
        split at h
        · cases h
        · rename_i h3
          split at h
          · cases h
          · rename_i h4
            have h := Option.some.inj h
            subst h
            refine ⟨hq, by simpa using h1, ?_, ?_, by omega⟩
            · intro c hc
              simp only [List.any_eq_true, decide_eq_true_eq, not_exists, not_and] at h2
              have := h2 c hc
              omega
            · intro p hp e1 e2
              simp only [State.poolsOf, List.any_eq_true, List.mem_filter, not_exists, not_and, Bool.and_eq_true] at h3
              have := h3 p ⟨hp, by simp [e1]⟩ (by simp [e2])
              simpa using this

theorem supply_pos (x y : Int) : 0 < initialPoolCoinSupply x y := by
  unfold initialPoolCoinSupply
  positivity

theorem createPool_reach (hw : WF s) {m : MsgCreatePool} (h : createPool m s = some s') : Reach s s' := by
  unfold createPool at h
  split at h
  · cases h
  · rename_i pair hv
    obtain ⟨v1, v2, v3, v4, v5⟩ := validateCreatePool_some hv
    split at h
    · cases h
    · rename_i ap hap
      simp only at h
      split at h
      · cases h
      · rename_i b hb
        have h := Option.some.inj h
        subst h
        refine createPoolBank_reach (hw.getPair_iff.1 v1).1 (fun _ => v4) v5 ?_ hb
        have : 0 < ap.ps := by
          unfold createBasicPool at hap
          split at hap
          · cases hap
          · simp only at hap
            split at hap
            · cases hap
            · split at hap
              · cases hap
              · have hap := Option.some.inj hap
                rw [← hap]
                exact supply_pos _ _
        exact lt_of_lt_of_le this (le_max_left _ _)

theorem validateCreateRangedPool_some {m : MsgCreateRangedPool} {pair : Pair} (h : validateCreateRangedPool m s = some pair) :
    s.getPair m.pairId = some pair ∧ coinsInPair pair m.coins = true ∧
    s.numActivePools pair.id < s.params.maxNumActivePools ∧
    priceToDownTick? m.minPrice s.params.tickPrec = some m.minPrice ∧
    priceToDownTick? m.maxPrice s.params.tickPrec = some m.maxPrice ∧
    priceToDownTick? m.initialPrice s.params.tickPrec = some m.initialPrice := by
  unfold validateCreateRangedPool at h
  split at h
  · cases h
  · split at h
    · cases h
    · split at h
      · cases h
      · split at h
        · cases h
        · split at h
          · cases h
          · split at h
            · cases h
            · split at h
              · cases h
              · split at h
                · cases h
                · have h := Option.some.inj h
                  subst h
                  refine ⟨by assumption, by simp_all, by omega, ?_, ?_, ?_⟩ <;> simp_all

theorem createRangedPool_ps {sqrt : Int → Int} {x y lo hi ini : Int} {ap : Pool}
    (h : createRangedPool sqrt x y lo hi ini = .ok ap) : 0 < ap.ps := by
  unfold createRangedPool at h
  split at h
  · cases h
  · split at h
    · cases h
    · unfold Res.ofOption at h
      split at h
      · rename_i p hp
        injection h with h
        subst h
        simp only [Option.bind_eq_bind, Option.bind_eq_some_iff] at hp
        obtain ⟨⟨ax, ay⟩, _, hp⟩ := hp
        unfold newRangedPool at hp
        simp only [Option.bind_eq_bind, Option.bind_eq_some_iff] at hp
        obtain ⟨⟨tx, ty⟩, _, hp⟩ := hp
        have hp := Option.some.inj hp
        rw [← hp]
        exact supply_pos _ _
      · cases h

theorem createRangedPool_reach (hw : WF s) {env : Env} {m : MsgCreateRangedPool} (h : createRangedPoolMsg env m s = some s') :
    Reach s s' := by
  unfold createRangedPoolMsg at h
  split at h
  · cases h
  · rename_i pair hv
    obtain ⟨v1, v2, v5, _⟩ := validateCreateRangedPool_some hv
    split at h
    · cases h
    · cases h
    · rename_i ap hap
      split at h
      · cases h
      · simp only at h
        split at h
        · cases h
        · rename_i b hb
          have h := Option.some.inj h
          subst h
          refine createPoolBank_reach (hw.getPair_iff.1 v1).1 (fun e => by cases e) v5 ?_ hb
          exact lt_of_lt_of_le (createRangedPool_ps hap) (le_max_left _ _)

theorem coinsValid_iff {cs : Coins} : coinsValid cs = true ↔ (∀ c ∈ cs, 0 < c.amt) ∧ (cs.map (·.denom)).Nodup := by
  simp [coinsValid]

theorem send_escrow {b b' : Bank} {src : Addr} {cs : Coins} (h : b.send src .globalEscrow cs = some b') (hs : src ≠ .globalEscrow)
    (d : Denom) : b'.bal .globalEscrow d = b.bal .globalEscrow d + amountOf cs d := by
  rw [(send_some h).2.2.2]
  simp [transferEffect, Ne.symm hs]

theorem depositMsg_reach (hw : WF s) {m : MsgDeposit} (hv : m.validateBasic = true) (h : depositMsg m s = some s') :
    Reach s s' := by
  have hc : coinsValid m.coins = true := by
    unfold MsgDeposit.validateBasic at hv
    by_contra hc
    simp only [Bool.not_eq_true] at hc
    simp [hc] at hv
  rw [coinsValid_iff] at hc
  unfold depositMsg at h
  split at h
  · cases h
  · rename_i pool hp
    obtain ⟨p1, p2⟩ := hw.getPool_iff.1 hp
    split at h
    · cases h
    · rename_i hd
      split at h
      · cases h
      · split at h
        · cases h
        · rename_i pair hpair
          split at h
          · cases h
          · split at h
            · cases h
            · split at h
              · cases h
              · split at h
                · cases h
                · rename_i b hb
                  have h := Option.some.inj h
                  subst h
                  exact Reach.single (Atom.newDeposit pool _ b p1 (by simpa using hd) (bankStep_send hb)
                    (send_escrow hb (by simp)) rfl p2.symm rfl rfl hc.1 hc.2 rfl)

theorem withdrawMsg_reach (hw : WF s) {m : MsgWithdraw} (hv : m.validateBasic = true) (h : withdrawMsg m s = some s') :
    Reach s s' := by
  have hc : 0 < m.coin.amt := by
    unfold MsgWithdraw.validateBasic at hv
    by_contra hc
    simp [hc] at hv
  unfold withdrawMsg at h
  split at h
  · cases h
  · rename_i pool hp
    obtain ⟨p1, p2⟩ := hw.getPool_iff.1 hp
    split at h
    · cases h
    · rename_i hd
      split at h
      · cases h
      · rename_i hden
        split at h
        · cases h
        · rename_i b hb
          have h := Option.some.inj h
          subst h
          exact Reach.single (Atom.newWithdraw pool _ b p1 (by simpa using hd) (bankStep_send hb)
            (send_escrow hb (by simp)) rfl p2.symm rfl (by simpa using hden) hc rfl)

/-- What `placeOrder` does when it succeeds. -/
theorem placeOrder_some {typ : OType} {orderer pairId : Nat} {dir : Dir} {offer : Coin} {demand : Denom}
    {price amount lifespan : Int} (h : placeOrder typ orderer pairId dir offer demand price amount lifespan s = some s') :
    ∃ pair rprice b, s.getPair pairId = some pair ∧ offer.amt ≤ s.bank.bal (.user orderer) offer.denom ∧
      lifespan ≤ s.params.maxOrderLifespan ∧ priceAllowed s.params pair typ price = true ∧
      offer.denom = pair.offerDenom dir ∧ demand = pair.demandDenom dir ∧
      orderPrice s.params pair typ dir price = some rprice ∧ offerCoinAmount dir rprice amount ≤ offer.amt ∧
      isTooSmallOrderAmount amount rprice = false ∧
      s.bank.send (.user orderer) (.pairEscrow pair.id) [⟨offer.denom, offerCoinAmount dir rprice amount⟩] = some b ∧
      s' = (({ s with bank := b }.setPair { pair with lastOrderId := pair.lastOrderId + 1 }).setOrder
        { typ, id := pair.lastOrderId + 1, pairId := pair.id, msgHeight := s.height, orderer
          dir := if offer.denom = pair.base then .sell else .buy
          offerDenom := offer.denom
          demandDenom := if offer.denom = pair.base then pair.quote else pair.base
          offer := offerCoinAmount dir rprice amount, remaining := offerCoinAmount dir rprice amount, received := 0
          price := rprice, amount, openAmt := amount
          batchId := pair.batchId, expireAt := s.time + lifespan, status := .notExecuted }) := by
  unfold placeOrder at h
  split at h
  · cases h
  · rename_i g1
    split at h
    · cases h
    · rename_i g2
      split at h
      · cases h
      · rename_i pair g3
        split at h
        · cases h
        · rename_i g4
          split at h
          · cases h
          · rename_i g5
            split at h
            · cases h
            · rename_i rprice g6
              simp only at h
              split at h
              · cases h
              · rename_i g7
                split at h
                · cases h
                · rename_i g8
                  split at h
                  · cases h
                  · rename_i b g9
                    have h := Option.some.inj h
                    rw [not_or, not_not, not_not] at g5
                    exact ⟨pair, rprice, b, g3, by omega, by omega, by simpa using g4, g5.1, g5.2, g6, by omega,
                      by simpa using g8, g9, h.symm⟩

/-- Consequences of the checks of `placeOrder`. -/
theorem placed_facts {pair : Pair} (hne : pair.base ≠ pair.quote) {dir : Dir} {offer : Coin} {rprice amount : Int}
    (h1 : offer.denom = pair.offerDenom dir) (h2 : isTooSmallOrderAmount amount rprice = false) :
    (if offer.denom = pair.base then Dir.sell else Dir.buy) = dir ∧
    (if offer.denom = pair.base then pair.quote else pair.base) = pair.demandDenom dir ∧
    100 ≤ amount ∧ 0 < rprice ∧ 0 ≤ offerCoinAmount dir rprice amount := by
  have hb : offer.denom = pair.base ↔ dir = .sell := by
    rw [h1]
    cases dir <;> simp [Pair.offerDenom, Ne.symm hne]
  unfold isTooSmallOrderAmount at h2
  simp only [Bool.or_eq_false_iff, decide_eq_false_iff_not, not_lt] at h2
  have ha : 100 ≤ amount := h2.1
  have hpp : 0 < rprice := by
    have h3 := h2.2
    have h4 : (0:Int) < Dec.ofInt minCoinAmount := by decide
    unfold Dec.mulInt at h3
    by_contra hc
    have : rprice * amount ≤ 0 := Int.mul_nonpos_of_nonpos_of_nonneg (by omega) (by omega)
    omega
  refine ⟨?_, ?_, ha, hpp, ?_⟩
  · cases dir <;> simp_all
  · cases dir <;> simp_all [Pair.demandDenom]
  · cases dir
    · exact (quoteCeil_spec (p := rprice) (a := amount) (by positivity)).1
    · show 0 ≤ amount; omega

theorem setNumMM_self (a p : Nat) (n : Option Nat) (h : s.numMM a p = n) : s.setNumMM a p n = s := by
  unfold State.setNumMM
  have : (fun a' p' => if a' = a ∧ p' = p then n else s.numMM a' p') = s.numMM := by
    funext a' p'
    split
    · rename_i e; rw [e.1, e.2, h]
    · rfl
  rw [this]

theorem placeOrder_reach (hw : WF s) {typ : OType} {orderer pairId : Nat} {dir : Dir} {offer : Coin} {demand : Denom}
    {price amount lifespan : Int} (ht : typ ≠ .mm)
    (h : placeOrder typ orderer pairId dir offer demand price amount lifespan s = some s') : Reach s s' := by
  obtain ⟨pair, rprice, b, g3, _, _, _, g5, _, _, _, g8, g9, rfl⟩ := placeOrder_some h
  obtain ⟨f1, f2, _, f4, f5⟩ := placed_facts (hw.pairNe pair (hw.getPair_iff.1 g3).1).1 g5 g8
  have := Atom.newOrder (s := s) pair
        { typ, id := pair.lastOrderId + 1, pairId := pair.id, msgHeight := s.height, orderer
          dir := if offer.denom = pair.base then .sell else .buy
          offerDenom := offer.denom
          demandDenom := if offer.denom = pair.base then pair.quote else pair.base
          offer := offerCoinAmount dir rprice amount, remaining := offerCoinAmount dir rprice amount, received := 0
          price := rprice, amount, openAmt := amount
          batchId := pair.batchId, expireAt := s.time + lifespan, status := .notExecuted } b
    (hw.getPair_iff.1 g3).1 (bankStep_send g9) (keeps_send g9 (by simp)) rfl rfl rfl rfl rfl f5 f4
    (by simp only [f1]; exact g5) (by simp only [f1]; exact f2) (fun e => absurd e ht)
  unfold State.incMM at this
  rw [if_neg ht] at this
  exact Reach.single this

theorem mmOrder_reach (hw : WF s) {m : MsgLimitOrder} (h : mmOrder m s = some s') : Reach s s' := by
  unfold mmOrder at h
  simp only at h
  split at h
  · cases h
  · rename_i hcap
    rw [Option.map_eq_some_iff] at h
    obtain ⟨s1, h1, rfl⟩ := h
    obtain ⟨pair, rprice, b, g3, _, _, _, g5, _, _, _, g8, g9, rfl⟩ := placeOrder_some h1
    obtain ⟨f1, f2, _, f4, f5⟩ := placed_facts (hw.pairNe pair (hw.getPair_iff.1 g3).1).1 g5 g8
    have hid := (hw.getPair_iff.1 g3).2
    have := Atom.newOrder (s := s) pair
        { typ := .mm, id := pair.lastOrderId + 1, pairId := pair.id, msgHeight := s.height, orderer := m.orderer
          dir := if m.offer.denom = pair.base then .sell else .buy
          offerDenom := m.offer.denom
          demandDenom := if m.offer.denom = pair.base then pair.quote else pair.base
          offer := offerCoinAmount m.dir rprice m.amt, remaining := offerCoinAmount m.dir rprice m.amt, received := 0
          price := rprice, amount := m.amt, openAmt := m.amt
          batchId := pair.batchId, expireAt := s.time + m.lifespan, status := .notExecuted } b
      (hw.getPair_iff.1 g3).1 (bankStep_send g9) (keeps_send g9 (by simp)) rfl rfl rfl rfl rfl f5 f4
      (by simp only [f1]; exact g5) (by simp only [f1]; exact f2)
      (fun _ => by simp only [hid]; omega)
    unfold State.incMM at this
    rw [if_pos rfl] at this
    refine Reach.single ?_
    rw [← hid]
    exact this

/-- `FinishOrder` on a live stored order (possibly with changed amounts). -/
theorem finishOrder_atom {o0 o : OrderRec} {status : OStatus} (ho : o0 ∈ s.orders) (hd0 : o0.done = false)
    (hs : SameOrder o0 o) (hd : o.done = false) (hst : status.shouldBeDeleted = true) (hrem : 0 ≤ o.remaining)
    (h : finishOrder o status s = some s') : Atom s s' := by
  unfold finishOrder at h
  unfold OrderRec.done at hd
  rw [hd] at h
  simp only [Bool.false_eq_true, if_false] at h
  split at h
  · cases h
  · rename_i b hb
    have hbb : BankStep s.bank b ∧ KeepsEscrow s.bank b := by
      split at hb
      · rw [Option.bind_eq_some_iff] at hb
        obtain ⟨pair, _, hb⟩ := hb
        exact ⟨bankStep_send hb, keeps_send hb (by simp)⟩
      · have hb := Option.some.inj hb
        subst hb
        exact ⟨BankStep.refl _, KeepsEscrow.refl _⟩
    have h1 := Atom.finOrder (s := s) o0 { o with status } b ho hd0 hst hs hrem hbb.1 hbb.2
    unfold State.decMM at h1
    split at h
    · rename_i e
      rw [if_pos e] at h1
      have h := Option.some.inj h
      subst h
      exact h1
    · rename_i e
      rw [if_neg e] at h1
      have h := Option.some.inj h
      subst h
      exact h1

theorem finishOrder_done {o : OrderRec} {status : OStatus} (hd : o.done = true) (h : finishOrder o status s = some s') : s' = s := by
  unfold finishOrder at h
  unfold OrderRec.done at hd
  rw [hd] at h
  exact (Option.some.inj h).symm

/-- The orders after `FinishOrder`. -/
theorem finishOrder_frame {o : OrderRec} {status : OStatus} (hd : o.done = false) (h : finishOrder o status s = some s') :
    s'.orders = upsert OrderRec.key { o with status } s.orders ∧ s'.pairs = s.pairs ∧ s'.pools = s.pools ∧
    s'.params = s.params ∧ s'.time = s.time ∧ s'.height = s.height ∧ s'.deposits = s.deposits ∧ s'.withdraws = s.withdraws ∧
    s'.shortfall = s.shortfall ∧ s'.lastPairId = s.lastPairId ∧ s'.lastPoolId = s.lastPoolId := by
  unfold finishOrder at h
  unfold OrderRec.done at hd
  rw [hd] at h
  simp only [Bool.false_eq_true, if_false] at h
  split at h
  · cases h
  · split at h <;>
    · have h := Option.some.inj h
      subst h
      exact ⟨rfl, rfl, rfl, rfl, rfl, rfl, rfl, rfl, rfl, rfl, rfl⟩

/-- Iteration with an invariant that may mention the remaining elements. -/
theorem forEach_inv {α σ : Type} {f : α → σ → Option σ} (P : List α → σ → Prop)
    (hstep : ∀ x xs s s', P (x :: xs) s → f x s = some s' → P xs s') :
    ∀ (l : List α) (s s' : σ), P l s → forEach f l s = some s' → P [] s' := by
  intro l
  induction l with
  | nil => intro s s' h e; simp only [forEach, Option.some.injEq] at e; subst e; exact h
  | cons x xs ih =>
    intro s s' h e
    simp only [forEach, Option.bind_eq_some_iff] at e
    obtain ⟨s1, e1, e2⟩ := e
    exact ih s1 s' (hstep x xs s s1 h e1) e2

theorem cancelOrder_reach (hw : WF s) {m : MsgCancelOrder} (h : cancelOrder m s = some s') : Reach s s' := by
  unfold cancelOrder at h
  split at h
  · cases h
  · rename_i o ho
    split at h
    · cases h
    · split at h
      · cases h
      · split at h
        · cases h
        · split at h
          · cases h
          · by_cases hd : o.done = true
            · rw [finishOrder_done hd h]
            · have hd : o.done = false := by simpa using hd
              exact Reach.single (finishOrder_atom (hw.getOrder_iff.1 ho).1 hd (SameOrder.refl o) hd rfl
                (hw.ordsOk o (hw.getOrder_iff.1 ho).1).1 h)

/-- The remaining elements of an iteration over orders are stored unchanged. -/
def Pending (xs : List OrderRec) (s : State) : Prop := xs.Nodup ∧ ∀ x ∈ xs, x ∈ s.orders

theorem Pending.upsert (hw : WF s) {x x' : OrderRec} {xs : List OrderRec} (hp : Pending (x :: xs) s)
    {t : State} (ht : t.orders = Dex.upsert OrderRec.key x' s.orders) (hk : x'.key = x.key) : Pending xs t := by
  obtain ⟨h1, h2⟩ := hp
  rw [List.nodup_cons] at h1
  refine ⟨h1.2, fun y hy => ?_⟩
  rw [ht]
  exact (hw.mem_setOrder (h2 x (by simp)) hk).2 (Or.inr ⟨h2 y (by simp [hy]), fun e => h1.1 (e ▸ hy)⟩)

theorem Pending.tail {x : OrderRec} {xs : List OrderRec} (hp : Pending (x :: xs) s) : Pending xs s :=
  ⟨(List.nodup_cons.1 hp.1).2, fun y hy => hp.2 y (by simp [hy])⟩

theorem Sorted.nodup {α : Type} {key : α → Key} {l : List α} (h : Sorted key l) : l.Nodup := List.Nodup.of_map key h.keys_nodup

theorem WF.pending (hw : WF s) (p : OrderRec → Bool) : Pending (s.orders.filter p) s :=
  ⟨hw.ordersS.nodup.filter _, fun _ hx => (List.mem_filter.1 hx).1⟩

theorem cancelAll_reach (hw : WF s) {m : MsgCancelAllOrders} (h : cancelAllOrders m s = some s') : Reach s s' := by
  unfold cancelAllOrders at h
  split at h
  · cases h
  · have := forEach_inv (f := cancelAllStep m.pairIds) (fun xs t => WF t ∧ Reach s t ∧ Pending xs t) (by
      rintro x xs t t' ⟨hw, hr, hp⟩ e
      unfold cancelAllStep at e
      split at e
      · split at e
        · cases e
        · split at e
          · by_cases hd : x.done = true
            · rw [finishOrder_done hd e]; exact ⟨hw, hr, hp.tail⟩
            · have hd : x.done = false := by simpa using hd
              have ha := finishOrder_atom (hp.2 x (by simp)) hd (SameOrder.refl x) hd rfl
                (hw.ordsOk x (hp.2 x (by simp))).1 e
              exact ⟨atom_wf hw ha, hr.tail ha, hp.upsert hw (finishOrder_frame hd e).1 rfl⟩
          · have e := Option.some.inj e
            subst e
            exact ⟨hw, hr, hp.tail⟩
      · have e := Option.some.inj e
        subst e
        exact ⟨hw, hr, hp.tail⟩) _ _ _ ⟨hw, Relation.ReflTransGen.refl, hw.pending _⟩ h
    exact this.2.1

end Verif.Dex

import Verif.Spec.Sides
import Verif.Proofs.OneSide
import Verif.Proofs.BatchPrefix
import Verif.Proofs.SaneDemo
/-! # C54: a pool trades on one side of a batch -/
namespace Verif.Props
open Verif Verif.Amm Verif.Dex Verif.Spec

/-- **C54** In the first batch of a pair no pool trades on both sides. -/
theorem C54_one_side_first_batch {env : Env} {pr : Params} {os : List Order} {pools : List (Nat × Pool)} {out : MatchOut}
    (hu : ∀ o ∈ os, ∀ id, o.kind ≠ .pool id) (hnd : (pools.map (·.1)).Nodup)
    (h : keeperMatch env pr os pools none = some (some out)) : OneSided out.orders :=
  oneSide_first hu hnd h

/-- **C54 (part)** In a later batch no pool trades on both sides, if no buy order is dust at the last price.  Missing: batches with
dust buy orders, where the claim is false (`C54_both_sides_halts`). -/
theorem C54_one_side_partial {env : Env} (hs : ∀ d, 0 ≤ d → 0 ≤ env.sqrt d) {pr : Params} (hpr : SaneParams pr) {os : List Order}
    {pools : List (Nat × Pool)} {L : Int} {out : MatchOut} (hL : 0 < L) (hl : ∀ o ∈ os, Live o)
    (hu : ∀ o ∈ os, ∀ id, o.kind ≠ .pool id) (hnd : (pools.map (·.1)).Nodup) (hr : ∀ e ∈ pools, 0 ≤ e.2.rx ∧ 0 ≤ e.2.ry)
    (hpp : ∀ e ∈ pools, ∀ pp, e.2.price = some pp → 0 ≤ pp)
    (hdust : ∀ o ∈ os, NoDust L o)
    (hdustp : ∀ lo hi, pr.priceLimits L = some (lo, hi) → ∀ e ∈ pools, ∀ o ∈ poolOrders env.sqrt e.1 e.2 lo hi pr.tickPrec, NoDust L o)
    (h : keeperMatch env pr os pools (some L) = some (some out)) : OneSided out.orders :=
  oneSide_later hs hpr hL hl hu hnd hr hpp hdust (fun lo hi e1 e h1 o h2 _ => hdustp lo hi e1 e h1 o h2) h

/-- **C54** If the last price is at least one quote coin per base coin, no pool trades on both sides. -/
theorem C54_one_side_high_price {env : Env} (hs : ∀ d, 0 ≤ d → 0 ≤ env.sqrt d) {pr : Params} (hpr : SaneParams pr) {os : List Order}
    {pools : List (Nat × Pool)} {L : Int} {out : MatchOut} (hL : 10 ^ 18 ≤ L) (hl : ∀ o ∈ os, Live o)
    (hu : ∀ o ∈ os, ∀ id, o.kind ≠ .pool id) (hnd : (pools.map (·.1)).Nodup) (hr : ∀ e ∈ pools, 0 ≤ e.2.rx ∧ 0 ≤ e.2.ry)
    (hpp : ∀ e ∈ pools, ∀ pp, e.2.price = some pp → 0 ≤ pp)
    (h : keeperMatch env pr os pools (some L) = some (some out)) : OneSided out.orders := by
  have hL1 : Dec.one ≤ L := hL
  have h1 : (0 : Int) < Dec.one := by decide
  exact oneSide_later hs hpr (by omega) hl hu hnd hr hpp (fun o ho hd hz => no_dust_high (hl o ho) hd hL1 hz)
    (fun _ _ _ _ _ _ _ hlive hd hz => no_dust_high hlive hd hL1 hz) h

/-- **C54** In a sane chain, whatever pairs of the block were matched before: the matching of a pair without a last price, or with
one of at least 1, leaves every pool on one side. -/
theorem C54_one_side_chain {env : Env} (hs : ∀ d, 0 ≤ d → 0 ≤ env.sqrt d) {s : State} (hc : SaneChain env s) (hsn : SaneState env s)
    {pre post : List Pair} {x : Pair} (he : s.pairs = pre ++ x :: post) {t : State} (h : forEach (executeMatching env) pre s = some t)
    (hx : ∀ L, x.lastPrice = some L → 10 ^ 18 ≤ L) {out : MatchOut} (ho : matchOutcome env x t = some out) : OneSided out.orders := by
  have hS := sane_of_chain hc
  have hB := before_match hS.reach.wf hsn hS.orders hS.prices he h
  unfold matchOutcome at ho
  split at ho
  · cases ho
  · rename_i s1 os hcol
    split at ho
    · cases ho
    · rename_i s2 pools hpl
      have hC := collect_all hB.wf x.id hcol
      have hP := collectPool_all hC.wf hpl
      have hO : os = (bookOrders t x.id).map newUserOrder := by
        have := collect_list _ _ _ _ hcol
        rw [List.nil_append] at this
        exact this
      have hR := fun id d => collect_reserve hB.wf x.id hcol id d
      have hprm : s2.params = t.params := hP.params.trans hC.frame.params
      have hsrc : ∀ e ∈ pools, ∃ pool ∈ t.pools, pool.pairId = x.id ∧
          ammPool env pool (t.bank.bal (.poolReserve pool.id) x.quote) (t.bank.bal (.poolReserve pool.id) x.base)
            (t.bank.supply (.pool pool.id)) = some e.2 := by
        intro e he
        obtain ⟨pool, p1, p2, p3, p4, p5, p6, p7⟩ := hP.src e he
        rw [hC.frame.pools] at p7
        have q1 := hR pool.id x.quote
        have q2 := hR pool.id x.base
        simp only at q1 q2 p5
        rw [q1.1, q2.1, q1.2] at p5
        exact ⟨pool, p7, p2, p5⟩
      have hu : ∀ o ∈ os, ∀ id, o.kind ≠ .pool id := by
        rw [hO]
        intro o ho id
        obtain ⟨r, _, rfl⟩ := List.mem_map.1 ho
        intro hk; cases hk
      have hk : keeperMatch env s2.params os pools x.lastPrice = some (some out) := by
        cases hm : keeperMatch env s2.params os pools x.lastPrice with
        | none => rw [hm] at ho; cases ho
        | some y => rw [hm] at ho; cases y with
          | none => cases ho
          | some z => rw [show z = out from Option.some.inj ho]
      cases hlp : x.lastPrice with
      | none => rw [hlp] at hk; exact oneSide_first hu hP.distinct hk
      | some L =>
        rw [hlp] at hk
        refine C54_one_side_high_price hs (by rw [hprm]; exact hB.params) (hx L hlp) ?_ hu hP.distinct ?_ ?_ hk
        · rw [hO]
          intro y hy
          obtain ⟨o, hm, rfl⟩ := List.mem_map.1 hy
          unfold bookOrders State.ordersOf at hm
          have := List.mem_filter.1 (List.mem_filter.1 hm).1
          exact newUser_live (hB.orders o this.1 (by simpa using this.2))
        · intro e he
          obtain ⟨pool, p1, p2, p3⟩ := hsrc e he
          have := ammPool_fields p3
          rw [this.1, this.2.1]
          exact ⟨hB.wf.bankNN _ _, hB.wf.bankNN _ _⟩
        · intro e he pp hpp
          obtain ⟨pool, p1, p2, p3⟩ := hsrc e he
          exact hB.pools pool p1 p2 _ _ p3 hpp

/-- **C54** With one-sided orders the check for a wrong order direction never fails while the results are applied: at any order of a
pool that traded, the direction recorded for the pool is the order's. -/
theorem C54_direction_check_passes {pair : Pair} {os pre post : List Order} {o : Order} {s : State} {st : ApplyState} {id : Nat}
    (h1 : OneSided os) (he : os = pre ++ o :: post) (h : forEach (applyOrder pair) pre ⟨s, [], []⟩ = some st) (hk : o.kind = .pool id)
    (ht : HasTraded o) : ∀ d, st.dirs.find? (fun d => d.1 == id) = some d → d.2 = o.dir := by
  have hinv : ∀ d ∈ st.dirs, ∃ o' ∈ pre, o'.kind = .pool d.1 ∧ HasTraded o' ∧ o'.dir = d.2 := by
    refine forEach_inv (f := applyOrder pair) (fun xs t => (∀ x ∈ xs, x ∈ pre) ∧ ∀ d ∈ t.dirs, ∃ o' ∈ pre, o'.kind = .pool d.1 ∧ HasTraded o' ∧ o'.dir = d.2)
      ?_ _ _ _ ⟨fun _ h => h, by simp⟩ h |>.2
    rintro x xs t t' ⟨hm, hd⟩ e
    refine ⟨fun y hy => hm y (by simp [hy]), ?_⟩
    unfold applyOrder at e
    split at e
    · cases e; exact hd
    · rename_i hmt
      have htr : HasTraded x := by
        unfold HasTraded
        simpa [Order.isMatched] using hmt
      simp only at e
      split at e
      · split at e
        · cases e
        · split at e
          · cases e
          · split at e
            · cases e
            · cases e; exact hd
      · rename_i pid hkx
        split at e
        · cases e
          intro d hd'
          rcases List.mem_append.1 hd' with hd' | hd'
          · exact hd d hd'
          · simp only [List.mem_singleton] at hd'
            subst hd'
            exact ⟨x, hm x (by simp), hkx, htr, rfl⟩
        · split at e
          · cases e
          · cases e; exact hd
  intro d hd
  obtain ⟨o', k1, k2, k3, k4⟩ := hinv d (List.mem_of_find?_eq_some hd)
  have hid : d.1 = id := by simpa using List.find?_some hd
  rw [← k4]
  subst he
  exact h1 o' (by simp [k1]) o (by simp) id (hid ▸ k2) hk k3 ht

/-- Non-vacuity: a sane chain whose pair has the last price 1, and whose next batch fills orders of a pool; and the same for a
pair without a last price. -/
example : ∃ s, SaneChain Demo.env s ∧ SaneState Demo.env s ∧ (s.pairs.map (fun x => x.lastPrice)) = [some (10 ^ 18)] ∧
    (s.pairs.any fun x => match matchOutcome Demo.env x s with
      | none => false
      | some out => out.orders.any fun o => decide (o.kind = .pool 1 ∧ o.openAmt < o.amount ∧ o.dir = .sell)) = true :=
  Demo.saneReach
    [.createPair ⟨1, .native 0, .native 1⟩,
     .limitOrder ⟨3, 1, .sell, ⟨.native 0, 20000⟩, .native 1, 1000000000000000000, 20000, 100⟩,
     .limitOrder ⟨2, 1, .buy, ⟨.native 1, 20000⟩, .native 0, 1000000000000000000, 20000, 100⟩, .endBlock,
     .createPool ⟨1, 1, [⟨.native 0, 2000000⟩, ⟨.native 1, 2000000⟩]⟩,
     .limitOrder ⟨2, 1, .buy, ⟨.native 1, 21000⟩, .native 0, 1050000000000000000, 20000, 100⟩]
    (fun s => (s.pairs.map (fun x => x.lastPrice)) = [some (10 ^ 18)] ∧
    (s.pairs.any fun x => match matchOutcome Demo.env x s with
      | none => false
      | some out => out.orders.any fun o => decide (o.kind = .pool 1 ∧ o.openAmt < o.amount ∧ o.dir = .sell)) = true)
    (by decide +kernel)

example : ∃ s, SaneChain Demo.env s ∧ SaneState Demo.env s ∧ (s.pairs.map (fun x => x.lastPrice)) = [none] ∧
    (s.pairs.any fun x => match matchOutcome Demo.env x s with
      | none => false
      | some out => out.orders.any fun o => decide (o.kind = .pool 1 ∧ o.openAmt < o.amount ∧ o.dir = .buy)) = true :=
  Demo.saneReach
    [.createPair ⟨1, .native 0, .native 1⟩, .createPool ⟨1, 1, [⟨.native 0, 2000000⟩, ⟨.native 1, 2000000⟩]⟩,
     .limitOrder ⟨3, 1, .sell, ⟨.native 0, 20000⟩, .native 1, 950000000000000000, 20000, 100⟩]
    (fun s => (s.pairs.map (fun x => x.lastPrice)) = [none] ∧
    (s.pairs.any fun x => match matchOutcome Demo.env x s with
      | none => false
      | some out => out.orders.any fun o => decide (o.kind = .pool 1 ∧ o.openAmt < o.amount ∧ o.dir = .buy)) = true)
    (by decide +kernel)

/-- A pair with the last price 0.0099; a pool with a price just above 0.01 that buys 100 base coins at 0.01, worth one quote coin
there and nothing at 0.0099; a ranged pool around 0.00995; a sell order that takes everything the pools buy at 0.0099 or more, and
has a worthless remainder. -/
def dustBuyHistory : List Op :=
  [.setParams { Demo.params with tickPrec := 2 },
   .createPair ⟨1, .native 0, .native 1⟩,
   .limitOrder ⟨3, 1, .sell, ⟨.native 0, 1000000⟩, .native 1, 9900000000000000, 1000000, 100⟩,
   .limitOrder ⟨2, 1, .buy, ⟨.native 1, 9900⟩, .native 0, 9900000000000000, 1000000, 100⟩, .endBlock,
   .createPool ⟨1, 1, [⟨.native 0, 100000000⟩, ⟨.native 1, 1000001⟩]⟩,
   .createRangedPool ⟨1, 1, [⟨.native 0, 1000000⟩, ⟨.native 1, 1000000⟩], 9000000000000000, 11000000000000000, 9950000000000000⟩,
   .limitOrder ⟨3, 1, .sell, ⟨.native 0, 565550⟩, .native 1, 9890000000000000, 565550, 100⟩]

/-- A pool of the list of orders traded on both sides. -/
def bothSides (os : List Order) : Bool :=
  os.any fun o => os.any fun o' => match o.kind, o'.kind with
    | .pool i, .pool j => decide (i = j ∧ o.openAmt < o.amount ∧ o'.openAmt < o'.amount ∧ o.dir ≠ o'.dir)
    | _, _ => false

theorem bothSides_sound {os : List Order} (h : bothSides os = true) : ¬ OneSided os := by
  unfold bothSides at h
  rw [List.any_eq_true] at h
  obtain ⟨o, ho, h⟩ := h
  rw [List.any_eq_true] at h
  obtain ⟨o', ho', h⟩ := h
  intro hc
  split at h
  · rename_i i j hi hj
    simp only [decide_eq_true_eq] at h
    obtain ⟨rfl, h1, h2, h3⟩ := h
    exact h3 (hc o ho o' ho' i hi hj h1 h2)
  · cases h

/-- **C54 is false**: in a sane chain a pool is matched on both sides of one batch, and the end of the block fails. -/
theorem C54_both_sides_halts : ∃ s, SaneChain Demo.env s ∧ SaneState Demo.env s ∧ step Demo.env .endBlock s = none ∧
    ∃ x ∈ s.pairs, ∃ out, matchOutcome Demo.env x s = some out ∧ ¬ OneSided out.orders := by
  obtain ⟨s, h1, h2, h3, h4⟩ := Demo.saneReach dustBuyHistory (fun s => endBlock Demo.env s = none ∧
    (s.pairs.any fun x => match matchOutcome Demo.env x s with | none => false | some out => bothSides out.orders) = true) (by decide +kernel)
  refine ⟨s, h1, h2, h3, ?_⟩
  rw [List.any_eq_true] at h4
  obtain ⟨x, hx, h4⟩ := h4
  split at h4
  · cases h4
  · rename_i out ho
    exact ⟨x, hx, out, ho, bothSides_sound h4⟩

end Verif.Props

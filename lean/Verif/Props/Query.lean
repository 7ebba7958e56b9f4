import Verif.Proofs.QueryDenom
import Verif.Proofs.QueryPool
import Verif.Proofs.DiskDemo
import Verif.Proofs.SaneDemo
import Verif.Props.Pool
/-!
# C69, C70, C71: the queries tell the truth

`Written enc s kv` (`Verif/Spec/Disk.lean`): the calls of the keeper led from an empty store to the records `s` and the byte
store `kv`, which is all that the queries read (with the balances).  `PagesThrough` (`Verif/Spec/Page.lean`): each page is the
window asked for, and following the next keys yields every record exactly once, in order.
-/
namespace Verif.Props
open Verif Verif.Dex Verif.Dex.KV Verif.Dex.Query Verif.Spec Verif.Spec.Keys

variable {env : Env} {enc : Enc} {s : State} {kv : Store}

/-- A query for one record returns it exactly if it is there; id zero is refused. -/
theorem C69_one_record (hsp : Spelling enc) (h : Written enc s kv) (i j : Nat) (hi : i < 2 ^ 64) (hj : j < 2 ^ 64) :
    (∀ p, Query.pair kv (u64 i) = some p ↔ i ≠ 0 ∧ p ∈ s.pairs ∧ p.id = i) ∧
    (∀ r, Query.depositRequest kv (u64 i) (u64 j) = some r ↔ i ≠ 0 ∧ j ≠ 0 ∧ r ∈ s.deposits ∧ r.poolId = i ∧ r.id = j) ∧
    (∀ r, Query.withdrawRequest kv (u64 i) (u64 j) = some r ↔ i ≠ 0 ∧ j ≠ 0 ∧ r ∈ s.withdraws ∧ r.poolId = i ∧ r.id = j) ∧
    (∀ o, Query.order kv (u64 i) (u64 j) = some o ↔ i ≠ 0 ∧ j ≠ 0 ∧ o ∈ s.orders ∧ o.pairId = i ∧ o.id = j) ∧
    (∀ a n, Name (enc.addr (.user a)) →
      (Query.numMMOrders enc kv a (u64 i) = some n ↔ i ≠ 0 ∧ n = UInt32.ofNat ((s.numMM a i).getD 0))) := by
  have im := h.image hsp
  have zi := u64_zero hi
  have zj := u64_zero hj
  refine ⟨fun p => ?_, fun r => ?_, fun r => ?_, fun o => ?_, fun a n ha => ?_⟩
  · unfold Query.pair
    by_cases h0 : i = 0
    · rw [if_pos (zi.2 h0)]; simp [h0]
    · rw [if_neg (fun e => h0 (zi.1 e)), im.getPair hi, Option.join_some, State.getPair, im.pairsS.lookup_iff]
      simp [h0, Pair.key]
  · unfold Query.depositRequest
    by_cases h0 : i = 0
    · rw [if_pos (zi.2 h0)]; simp [h0]
    · by_cases h1 : j = 0
      · rw [if_neg (fun e => h0 (zi.1 e)), if_pos (zj.2 h1)]; simp [h1]
      · rw [if_neg (fun e => h0 (zi.1 e)), if_neg (fun e => h1 (zj.1 e)), im.getDeposit hi hj, Option.join_some, im.depsS.lookup_iff]
        simp [h0, h1, DepReq.key]
  · unfold Query.withdrawRequest
    by_cases h0 : i = 0
    · rw [if_pos (zi.2 h0)]; simp [h0]
    · by_cases h1 : j = 0
      · rw [if_neg (fun e => h0 (zi.1 e)), if_pos (zj.2 h1)]; simp [h1]
      · rw [if_neg (fun e => h0 (zi.1 e)), if_neg (fun e => h1 (zj.1 e)), im.getWithdraw hi hj, Option.join_some, im.wdsS.lookup_iff]
        simp [h0, h1, WdReq.key]
  · unfold Query.order
    by_cases h0 : i = 0
    · rw [if_pos (zi.2 h0)]; simp [h0]
    · by_cases h1 : j = 0
      · rw [if_neg (fun e => h0 (zi.1 e)), if_pos (zj.2 h1)]; simp [h1]
      · rw [if_neg (fun e => h0 (zi.1 e)), if_neg (fun e => h1 (zj.1 e)), im.getOrder hi hj, Option.join_some, im.ordersS.lookup_iff]
        simp [h0, h1, OrderRec.key]
  · unfold Query.numMMOrders
    by_cases h0 : i = 0
    · rw [if_pos (zi.2 h0)]; simp [h0]
    · rw [if_neg (fun e => h0 (zi.1 e)), im.numMM hsp ha hi]
      simp [h0, eq_comm, State.getNumMM]

/-- Satisfiable: before the batch there are a pair, a pool, a deposit request, two orders and a market-making counter. -/
example : Spelling Demo.enc ∧ Name (Demo.enc.addr (.user 2)) ∧ ∃ s kv, Written Demo.enc s kv ∧
    (s.pairs.length = 1 ∧ s.deposits.length = 1 ∧ s.orders.length = 2 ∧ s.numMM 2 1 = some 1) :=
  ⟨Demo.spelling, Demo.spell_name (k := 3) (n := 2) (by decide), Demo.onDisk Demo.placed _ (by decide +kernel)⟩

/-- Paging through the pairs, the deposit or withdraw requests of a pool, the orders of a pair and the orders of an account
(of one or all pairs) gives exactly these records. -/
theorem C69_lists (hsp : Spelling enc) (h : Written enc s kv)
    (hfew : s.pairs.length < 2 ^ 64 ∧ s.deposits.length < 2 ^ 64 ∧ s.withdraws.length < 2 ^ 64 ∧ s.orders.length < 2 ^ 64) :
    PagesThrough (Query.pairs enc kv []) s.pairs ∧
    (∀ i, i < 2 ^ 64 → i ≠ 0 →
      PagesThrough (Query.depositRequests kv (u64 i)) (s.deposits.filter (fun r => r.poolId = i)) ∧
      PagesThrough (Query.withdrawRequests kv (u64 i)) (s.withdraws.filter (fun r => r.poolId = i)) ∧
      PagesThrough (Query.orders kv (u64 i)) (s.orders.filter (fun o => o.pairId = i))) ∧
    (∀ n i, Name (enc.addr (.user n)) → (enc.addr (.user n)).length ≤ 245 → i < 2 ^ 64 →
      PagesThrough (Query.ordersByOrderer enc kv (.user n) (u64 i))
        (s.orders.filter (fun o => o.orderer = n ∧ (i = 0 ∨ o.pairId = i)))) ∧
    (∀ r, Query.depositRequests kv 0 r = none ∧ Query.withdrawRequests kv 0 r = none ∧ Query.orders kv 0 r = none) := by
  have im := h.image hsp
  exact ⟨pages_pairs im hfew.1,
    fun i hi h0 => ⟨pages_deposits im hfew.2.1 hi h0, pages_withdraws im hfew.2.2.1 hi h0, pages_orders im hfew.2.2.2 hi h0⟩,
    fun n i hn hs hi => pages_ordersBy im hsp hfew.2.2.2 hi hn hs, fun r => ⟨rfl, rfl, rfl⟩⟩

/-- Satisfiable: two orders and a deposit request, and a first request for the second order, backwards. -/
example : (∃ s kv, Written Demo.enc s kv ∧ (s.pairs.length < 2 ^ 64 ∧ s.deposits.length < 2 ^ 64 ∧ s.withdraws.length < 2 ^ 64 ∧
      s.orders.length < 2 ^ 64) ∧ (s.orders.map (·.pairId) = [1, 1] ∧ s.deposits.map (·.poolId) = [1])) ∧
    FirstPage { offset := 0, limit := 1, reverse := true } :=
  ⟨Demo.onDisk Demo.placed _ (by decide +kernel), ⟨rfl, by decide⟩⟩

/-- Why a page size at the end of the 64-bit range is excluded (`FirstPage.inRange`): with the largest page size the page of a
filtering query ends at the first record that is not asked for.  If the first order in the store is of another pair, the page
of the orders of pair `i` is empty although there may be some (the next key leads to them). -/
theorem C69_largest_page_size_stops (hsp : Spelling enc) (h : Written enc s kv) (o : OrderRec) (rest : List OrderRec)
    (ho : s.orders = o :: rest) (i : Nat) (hi : i < 2 ^ 64) (h0 : i ≠ 0) (hne : o.pairId ≠ i) :
    ∃ p, Query.orders kv (u64 i) { limit := 18446744073709551615 } = some p ∧ p.items = [] ∧ p.nextKey ≠ none := by
  have im := h.image hsp
  have hst : prefixStore kv Keys.orderKeyPrefix = s.orders.map (fun o => (Keys.be64 (u64 o.pairId) ++ Keys.be64 (u64 o.id), .order o)) :=
    prefixStore_eq (by rw [im.scan_orders]; simp [Keys.getOrderKey])
  have hfit : o.pairId < 2 ^ 64 := (im.stor.orders o (by rw [ho]; exact List.mem_cons_self ..)).1
  unfold Query.orders
  rw [if_neg (fun e => h0 ((u64_zero hi).1 e)), hst, ho, List.map_cons, paginate_max]
  · exact ⟨_, rfl, rfl, by simp⟩
  · simp only [asOrder, Option.map_some]
    rw [if_neg (fun e => hne ((u64_inj hfit hi).1 e))]

/-- Satisfiable: an order of pair 1 and one of pair 2. -/
example : ∃ s kv, Written Demo.enc s kv ∧ s.orders.map (·.pairId) = [1, 2] :=
  Demo.onDisk [.createPair ⟨1, .native 0, .native 1⟩, .createPair ⟨1, .native 1, .native 0⟩,
      .limitOrder ⟨2, 1, .buy, ⟨.native 1, 10 ^ 6⟩, .native 0, 10 ^ 18, 10 ^ 6, 0⟩,
      .limitOrder ⟨2, 2, .buy, ⟨.native 0, 10 ^ 6⟩, .native 1, 10 ^ 18, 10 ^ 6, 0⟩] _ (by decide +kernel)

/-- The part of the claim about the pairs of one or of two denoms that holds: if the names of the denoms are together not
longer than 252 bytes, paging gives exactly the pairs with this denom, or with these two in any order.  Missing: longer
denoms, for which the claim is false, see `C70_long_denoms_fail`. -/
theorem C70_pairs_of_denoms_partial (hsp : Spelling enc) (h : Written enc s kv) (hfew : s.pairs.length < 2 ^ 64) :
    (∀ d, Name (enc.denom d) →
      (∀ p ∈ s.pairs, p.base = d ∨ p.quote = d → (enc.denom p.base).length + (enc.denom p.quote).length ≤ 252) →
      ∃ L, L.Perm (s.pairs.filter (fun p => p.base = d ∨ p.quote = d)) ∧ PagesThrough (Query.pairs enc kv [d]) L) ∧
    (∀ d d', Name (enc.denom d) → Name (enc.denom d') → (enc.denom d).length + (enc.denom d').length ≤ 252 →
      PagesThrough (Query.pairs enc kv [d, d'])
        (s.pairs.filter (fun p => (p.base = d ∧ p.quote = d') ∨ (p.base = d' ∧ p.quote = d)))) := by
  have im := h.image hsp
  exact ⟨fun d hd hs => pages_byDenom im hsp hfew hd hs, fun d d' hd hd' hs => pages_byDenoms im hsp hfew hd hd' hs⟩

/-- Satisfiable: two pairs of the same two denoms, with short names. -/
example : Spelling Demo.enc ∧ Name (Demo.enc.denom (.native 0)) ∧ (Demo.enc.denom (.native 0)).length ≤ 100 ∧ ∃ s kv, Written Demo.enc s kv ∧
    (s.pairs.length = 2 ∧ s.pairs.map (·.base) = [.native 0, .native 1]) :=
  ⟨Demo.spelling, Demo.spell_name (k := 1) (n := 0) (by decide), by decide,
    Demo.onDisk [.createPair ⟨1, .native 0, .native 1⟩, .createPair ⟨1, .native 1, .native 0⟩] _ (by decide +kernel)⟩

/-- The claim is false for long denoms: if the denoms of one pair are not longer than the SDK allows (128 bytes) but together
have 253 bytes or more, the query for the pairs of one of them, asked with a count or without a page size, panics whatever the
other pairs are. -/
theorem C70_long_denoms_fail (hsp : Spelling enc) (h : Written enc s kv) (d : Denom) (hd : Name (enc.denom d)) (p : Pair)
    (hp : p ∈ s.pairs) (hb : p.base = d ∨ p.quote = d) (h1 : (enc.denom p.base).length ≤ 128) (h2 : (enc.denom p.quote).length ≤ 128)
    (h3 : 253 ≤ (enc.denom p.base).length + (enc.denom p.quote).length) (r : PageReq) (hk : r.key = [])
    (hc : r.countTotal = true ∨ r.limit = 0) : Query.pairs enc kv [d] r = none :=
  byDenom_fails (h.image hsp) hsp hd hp hb h1 h2 h3 hk hc

/-- Satisfiable: a chain with one pair whose denoms have 128 bytes each. -/
example : Spelling Demo.longEnc ∧ ∃ s kv, Written Demo.longEnc s kv ∧ ∃ p ∈ s.pairs, p.base = .native 0 ∧ Name (Demo.longEnc.denom p.base) ∧
    (Demo.longEnc.denom p.base).length = 128 ∧ (Demo.longEnc.denom p.quote).length = 128 :=
  ⟨Demo.longSpelling, _, _, .pairCreated ⟨1, .native 0, .native 1, 0, none, 1⟩ (.genesis Demo.genesis) rfl (by intro q hq; cases hq)
    (by decide +kernel) (by decide +kernel) (by decide +kernel), ⟨1, .native 0, .native 1, 0, none, 1⟩, by decide +kernel, rfl, by decide +kernel, by decide +kernel, by decide +kernel⟩

/-- Paging through the pools, of one pair or of all, enabled or disabled or both, reports exactly these pools, if every pool
can be reported.  Missing: one live pool whose price cannot be computed makes the whole query fail,
`C71_unpriced_pool_fails`. -/
theorem C71_pools_partial (hsp : Spelling enc) (h : Written enc s kv) (hfew : s.pools.length < 2 ^ 64)
    (hr : ∀ p ∈ s.pools, ∃ r, ReportsPool env s p r) (i : Nat) (hi : i < 2 ^ 64) (disabled : Option Bool) :
    ∃ L, List.Forall₂ (ReportsPool env s)
        (s.pools.filter (fun p => (i = 0 ∨ p.pairId = i) ∧ (disabled = none ∨ disabled = some p.disabled))) L ∧
      PagesThrough (Query.pools env s.bank kv (u64 i) disabled) L := pages_reports (h.image hsp) hfew hi disabled hr

-- A store that meets the hypotheses is below, after `C71_reportable`.

/-- A pool can be reported if its pair exists and it is disabled or is a basic pool with both coins. -/
theorem C71_reportable (p : PoolRec) (pair : Pair) (hp : pair ∈ s.pairs) (hid : pair.id = p.pairId)
    (hpool : p.disabled = true ∨ p.range = none ∧ 0 < s.bank.bal (.poolReserve p.id) pair.base ∧ 0 < s.bank.bal (.poolReserve p.id) pair.quote) :
    ∃ r, ReportsPool env s p r := by
  cases hd : p.disabled with
  | true => exact ⟨⟨p, _, _, _, none⟩, rfl, ⟨pair, hp, hid, rfl, rfl⟩, rfl, by rw [hd]; rfl⟩
  | false =>
    rw [hd] at hpool
    rcases hpool with h | ⟨h1, h2, h3⟩
    · cases h
    · obtain ⟨x, hx, _⟩ := C55_price_defined_partial
        (Amm.newBasicPool (s.bank.bal (.poolReserve p.id) pair.quote) (s.bank.bal (.poolReserve p.id) pair.base) 1)
        ⟨by simp only [Amm.newBasicPool]; omega, by simp only [Amm.newBasicPool]; omega, le_refl _, le_refl _,
          by simp [Amm.newBasicPool]⟩
        (by simp [Amm.newBasicPool, Amm.Pool.isDepleted]; omega) (Or.inl rfl)
      exact ⟨⟨p, _, _, _, some x⟩, rfl, ⟨pair, hp, hid, rfl, rfl⟩, rfl, by
        rw [hd]
        exact ⟨Amm.newBasicPool (s.bank.bal (.poolReserve p.id) pair.quote) (s.bank.bal (.poolReserve p.id) pair.base) 0, x,
          by simp [ammPool, h1], hx, rfl⟩⟩

/-- Satisfiable: a store with a pool in which every pool can be reported. -/
example : ∃ s kv, Written Demo.enc s kv ∧ s.pools.length = 1 ∧ ∀ p ∈ s.pools, ∃ r, ReportsPool Demo.env s p r := by
  obtain ⟨s, kv, h, h1, h2⟩ := Demo.onDisk Demo.placed (fun s => s.pools.length = 1 ∧ ∀ p ∈ s.pools, ∃ pair ∈ s.pairs, pair.id = p.pairId ∧
    p.range = none ∧ 0 < s.bank.bal (.poolReserve p.id) pair.base ∧ 0 < s.bank.bal (.poolReserve p.id) pair.quote) (by decide +kernel)
  refine ⟨s, kv, h, h1, fun p hp => ?_⟩
  obtain ⟨pair, h3, h4, h5⟩ := h2 p hp
  exact C71_reportable p pair h3 h4 (Or.inr h5)

/-- Satisfiable: a live basic pool with both coins. -/
example : ∃ s kv, Written Demo.enc s kv ∧ ∃ p ∈ s.pools, ∃ pair ∈ s.pairs, pair.id = p.pairId ∧ p.disabled = false ∧ p.range = none ∧
    0 < s.bank.bal (.poolReserve p.id) pair.base ∧ 0 < s.bank.bal (.poolReserve p.id) pair.quote :=
  Demo.onDisk Demo.placed _ (by decide +kernel)

/-- The claim is false if the price of a live pool cannot be computed: then no page that contains the pool can be had, so the
pools before and after it on the page cannot be seen either. -/
theorem C71_unpriced_pool_fails (hsp : Spelling enc) (h : Written enc s kv) (hfew : s.pools.length < 2 ^ 64) (i : Nat) (hi : i < 2 ^ 64)
    (disabled : Option Bool) (p : PoolRec) (hp : p ∈ s.pools)
    (hsel : (i = 0 ∨ p.pairId = i) ∧ (disabled = none ∨ disabled = some p.disabled)) (hr : ∀ r, ¬ ReportsPool env s p r)
    (r : PageReq) (hf : FirstPage r) (hoff : r.offset = 0) (hlim : s.pools.length ≤ effectiveLimit r) :
    Query.pools env s.bank kv (u64 i) disabled r = none := pools_fails (h.image hsp) hfew hi disabled hp hsel hr hf hoff hlim

/-- Reachable: a ranged pool between the prices 399 and 400 to which one unit of the base coin was sent (see
`C61_ranged_pool_halts`), beside a pool that is fine. -/
example : ∃ s kv, Written Demo.enc s kv ∧ s.pools.length = 2 ∧ FirstPage {} ∧ s.pools.length ≤ effectiveLimit {} ∧
    (∃ p ∈ s.pools, ∃ r, ReportsPool Demo.env s p r) ∧ ∃ p ∈ s.pools, ∀ r, ¬ ReportsPool Demo.env s p r := by
  obtain ⟨s, kv, h, h1, ⟨p, h2, pair, h3, h4, h5, h6, h7⟩, q, h8, h9, h10⟩ := Demo.onDiskFrom Demo.richGenesis
    [.createPair ⟨1, .native 0, .native 1⟩, .createPool ⟨1, 1, [⟨.native 0, 10 ^ 6⟩, ⟨.native 1, 400 * 10 ^ 6⟩]⟩,
      .createRangedPool ⟨1, 1, [⟨.native 1, 10044954987157⟩], 399 * 10 ^ 18, 400 * 10 ^ 18, 400 * 10 ^ 18⟩,
      .transfer 2 (.poolReserve 2) [⟨.native 0, 1⟩]]
    (fun s => s.pools.length = 2 ∧ (∃ p ∈ s.pools, ∃ pair ∈ s.pairs, pair.id = p.pairId ∧ p.range = none ∧
      0 < s.bank.bal (.poolReserve p.id) pair.base ∧ 0 < s.bank.bal (.poolReserve p.id) pair.quote) ∧
      ∃ p ∈ s.pools, p.disabled = false ∧ ∀ pair ∈ s.pairs,
        ammPool Demo.env p (s.bank.bal (.poolReserve p.id) pair.quote) (s.bank.bal (.poolReserve p.id) pair.base) 0 = none) (by decide +kernel)
  refine ⟨s, kv, h, h1, ⟨rfl, by decide⟩, by rw [h1]; decide, ⟨p, h2, C71_reportable p pair h3 h4 (Or.inr ⟨h5, h6, h7⟩)⟩, q, h8, fun r hr => ?_⟩
  obtain ⟨pair, g1, g2, g3, g4⟩ := hr.balances
  have g5 := hr.price
  rw [h9, if_neg (by decide)] at g5
  obtain ⟨a, x, g6, _⟩ := g5
  rw [g3, g4, h10 pair g1] at g6
  cases g6

/-- A query for one pool, by id, by its reserve account or by its pool coin, reports this pool, and reports nothing if there is
no such pool (or if its price cannot be computed). -/
theorem C71_one_pool (hsp : Spelling enc) (h : Written enc s kv) (r : PoolRes) :
    (∀ i, i < 2 ^ 64 → (Query.pool env s.bank kv (u64 i) = some r ↔ i ≠ 0 ∧ ∃ p ∈ s.pools, p.id = i ∧ ReportsPool env s p r)) ∧
    (∀ a, Name (enc.addr a) →
      (Query.poolByReserveAddress env enc s.bank kv a = some r ↔ ∃ p ∈ s.pools, a = .poolReserve p.id ∧ ReportsPool env s p r)) ∧
    (∀ d, Query.poolByPoolCoinDenom env s.bank kv d = some r ↔
      ∃ p ∈ s.pools, 0 < p.id ∧ d = Keys.poolCoinDenom (u64 p.id) ∧ ReportsPool env s p r) := by
  have im := h.image hsp
  exact ⟨fun i hi => pool_iff im hi r, fun a ha => poolByReserve_iff im hsp ha r, fun d => poolByDenom_iff im d r⟩

/-- Satisfiable: a store with a pool that can be reported. -/
example : ∃ s kv, Written Demo.enc s kv ∧ ∃ p ∈ s.pools, p.id = 1 ∧ ∃ r, ReportsPool Demo.env s p r := by
  obtain ⟨s, kv, h, p, h1, pair, h2, h3, h4, h5, h6, h7⟩ := Demo.onDisk Demo.placed (fun s => ∃ p ∈ s.pools, ∃ pair ∈ s.pairs, pair.id = p.pairId ∧
    p.id = 1 ∧ p.range = none ∧ 0 < s.bank.bal (.poolReserve p.id) pair.base ∧ 0 < s.bank.bal (.poolReserve p.id) pair.quote) (by decide +kernel)
  exact ⟨s, kv, h, p, h1, h4, C71_reportable p pair h2 h3 (Or.inr ⟨h5, h6, h7⟩)⟩

end Verif.Props

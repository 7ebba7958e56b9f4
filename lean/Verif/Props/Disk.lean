import Verif.Proofs.DiskHistory
import Verif.Proofs.DiskDemo
/-!
# C68: the byte store always says what the records say

`Written enc s kv` (`Verif/Spec/Disk.lean`): the calls of the keeper led from an empty store to the records `s` and the byte
store `kv`.  The theorems say what the look-ups and iterations of x/dex/keeper/store.go then return, for every history and
every spelling of denoms and accounts.
-/
namespace Verif.Props
open Verif Verif.Dex Verif.Dex.KV Verif.Spec Verif.Spec.Keys

variable {enc : Enc} {s : State} {kv kv' : Store}

/-- Every history of the module from genesis along which the ids fit in 64 bits and the names in 255 bytes is a sequence of
the store calls of `Written`: no key has to be built that cannot be built. -/
theorem C68_history_written {env : Env} {ops : List Op} {s0 : State} (hg : Genesis s0) (h : run env ops s0 = some s)
    (hfit : ∀ k t, run env (ops.take k) s0 = some t → Storable enc t) : ∃ kv, Written enc s kv :=
  written_run (genesis_wf hg) h hfit (.genesis hg)

/-- Satisfiable: a history with a pair, a pool, a finished deposit and two orders, in the next block. -/
example : ∃ s0 s, Genesis s0 ∧ run Demo.env Demo.traded s0 = some s ∧
    (∀ k t, run Demo.env (Demo.traded.take k) s0 = some t → Storable Demo.enc t) := by
  cases e : Demo.runFits Demo.traded Demo.s0 with
  | none => exact absurd e (by decide +kernel)
  | some s => exact ⟨_, s, Demo.genesis, (Demo.runFits_sound e).1, (Demo.runFits_sound e).2⟩

/-- What is in the byte store depends on the records only, not on how they came about: no entry is ever left behind, in
particular no index entry of a deleted order or request. -/
theorem C68_nothing_left_behind (hsp : Spelling enc) (h : Written enc s kv) (h' : Written enc s kv') : kv = kv' := by
  have i := h.image hsp
  have i' := h'.image hsp
  exact i.rep.ordered.ext i'.rep.ordered (fun ⟨k, v⟩ => by rw [i.rep.mem, i'.rep.mem])

/-- Satisfiable: the spelling distinguishes names, and there is a store after trading and deleting the deposit request and the
completed orders. -/
example : Spelling Demo.enc ∧ ∃ s kv, Written Demo.enc s kv ∧
    (s.pairs.length = 1 ∧ s.pools.length = 1 ∧ s.deposits = [] ∧ s.pairs.map (·.lastOrderId) = [2] ∧ s.pools.map (·.lastDepositId) = [1]) :=
  ⟨Demo.spelling, Demo.onDisk Demo.traded _ (by decide +kernel)⟩

/-- Look-ups by id find exactly the record with that id. -/
theorem C68_lookups (hsp : Spelling enc) (h : Written enc s kv) (i j : Nat) (hi : i < 2 ^ 64) (hj : j < 2 ^ 64) :
    KV.getLastPairId kv = some (u64 s.lastPairId) ∧ KV.getLastPoolId kv = some (u64 s.lastPoolId) ∧
    Finds (KV.getPair kv (u64 i)) (fun p => p ∈ s.pairs ∧ p.id = i) ∧
    Finds (KV.getPool kv (u64 i)) (fun p => p ∈ s.pools ∧ p.id = i) ∧
    Finds (KV.getDepositRequest kv (u64 i) (u64 j)) (fun r => r ∈ s.deposits ∧ r.poolId = i ∧ r.id = j) ∧
    Finds (KV.getWithdrawRequest kv (u64 i) (u64 j)) (fun r => r ∈ s.withdraws ∧ r.poolId = i ∧ r.id = j) ∧
    Finds (KV.getOrder kv (u64 i) (u64 j)) (fun o => o ∈ s.orders ∧ o.pairId = i ∧ o.id = j) := by
  have im := h.image hsp
  refine ⟨im.lastPairId, im.lastPoolId, ⟨_, im.getPair hi, fun x => ?_⟩, ⟨_, im.getPool hi, fun x => ?_⟩, ⟨_, im.getDeposit hi hj, fun x => ?_⟩,
    ⟨_, im.getWithdraw hi hj, fun x => ?_⟩, ⟨_, im.getOrder hi hj, fun x => ?_⟩⟩
  · rw [State.getPair, im.pairsS.lookup_iff]; simp [Pair.key]
  · rw [State.getPool, im.poolsS.lookup_iff]; simp [PoolRec.key]
  · rw [im.depsS.lookup_iff]; simp [DepReq.key]
  · rw [im.wdsS.lookup_iff]; simp [WdReq.key]
  · rw [im.ordersS.lookup_iff]; simp [OrderRec.key]

/-- Satisfiable: before the batch there are a pair, a pool, a deposit request and two orders. -/
example : Spelling Demo.enc ∧ ∃ s kv, Written Demo.enc s kv ∧
    (s.pairs.length = 1 ∧ s.pools.length = 1 ∧ s.deposits.length = 1 ∧ s.orders.length = 2) :=
  ⟨Demo.spelling, Demo.onDisk Demo.placed _ (by decide +kernel)⟩

/-- Look-ups through an index find exactly the record asked for: the pair of two denoms, the pool with a reserve account. -/
theorem C68_index_lookups (hsp : Spelling enc) (h : Written enc s kv) :
    (∀ b q, Name (enc.denom b) → Name (enc.denom q) →
      Finds (KV.getPairByDenoms enc kv b q) (fun p => p ∈ s.pairs ∧ p.base = b ∧ p.quote = q)) ∧
    (∀ a, Name (enc.addr a) → Finds (KV.getPoolByReserveAddress enc kv a) (fun p => p ∈ s.pools ∧ a = .poolReserve p.id)) := by
  have im := h.image hsp
  refine ⟨fun b q hb hq => ⟨_, im.getPairByDenoms hsp hb hq, fun p => ?_⟩, fun a ha => ⟨_, im.getPoolByReserve hsp ha, fun p => ?_⟩⟩
  · constructor
    · intro hp
      have h2 := List.find?_some hp
      simp at h2
      exact ⟨List.mem_of_find?_eq_some hp, h2⟩
    · rintro ⟨h1, rfl, rfl⟩
      cases hf : s.getPairByDenoms p.base p.quote with
      | none => exact absurd (List.find?_eq_none.1 hf p h1) (by simp)
      | some x =>
        have g2 := List.find?_some hf
        simp at g2
        rw [im.pairUniq x (List.mem_of_find?_eq_some hf) p h1 g2.1 g2.2]
  · cases a with
    | poolReserve id =>
      show s.getPool id = some p ↔ _
      rw [State.getPool, im.poolsS.lookup_iff]
      simp [PoolRec.key, eq_comm]
    | _ => simp [reservePool]

/-- Satisfiable: the names of the demo have 9 bytes. -/
example : Name (Demo.enc.denom (.native 0)) ∧ Name (Demo.enc.addr (.poolReserve 1)) ∧ ∃ s kv, Written Demo.enc s kv ∧
    ∃ p ∈ s.pools, p.id = 1 := by
  refine ⟨Demo.spell_name (k := 1) (n := 0) (by decide), Demo.spell_name (k := 4) (n := 1) (by decide), ?_⟩
  obtain ⟨s, kv, h, hp⟩ := Demo.onDisk Demo.placed (fun s => (s.pools.any (fun p => p.id == 1)) = true) (by decide +kernel)
  rw [List.any_eq_true] at hp
  obtain ⟨p, h1, h2⟩ := hp
  exact ⟨s, kv, h, p, h1, by simpa using h2⟩

/-- The iterations visit exactly the records asked for, each once, in order of the ids: all of a kind, those of a pair, and
those of an account (found through the index; an index entry always has its record). -/
theorem C68_iterations (hsp : Spelling enc) (h : Written enc s kv) :
    (KV.allPairs kv = some s.pairs ∧ s.pairs.Pairwise (fun a b => a.id < b.id)) ∧
    (KV.allPools kv = some s.pools ∧ s.pools.Pairwise (fun a b => a.id < b.id)) ∧
    (KV.allDeposits kv = some s.deposits ∧ s.deposits.Pairwise (fun a b => a.poolId < b.poolId ∨ a.poolId = b.poolId ∧ a.id < b.id)) ∧
    (KV.allWithdraws kv = some s.withdraws ∧
      s.withdraws.Pairwise (fun a b => a.poolId < b.poolId ∨ a.poolId = b.poolId ∧ a.id < b.id)) ∧
    (KV.allOrders kv = some s.orders ∧ s.orders.Pairwise (fun a b => a.pairId < b.pairId ∨ a.pairId = b.pairId ∧ a.id < b.id)) ∧
    (∀ i, i < 2 ^ 64 → KV.poolsByPair kv (u64 i) = some ((s.pools.filter (fun p => p.pairId = i)).map some) ∧
      KV.ordersByPair kv (u64 i) = some (s.orders.filter (fun o => o.pairId = i))) ∧
    (∀ n, Name (enc.addr (.user n)) → (enc.addr (.user n)).length ≤ 245 →
      KV.depositsBy enc kv (.user n) = some ((s.deposits.filter (fun r => r.depositor = n)).map some) ∧
      KV.withdrawsBy enc kv (.user n) = some ((s.withdraws.filter (fun r => r.withdrawer = n)).map some) ∧
      KV.ordersBy enc kv (.user n) = some ((s.orders.filter (fun o => o.orderer = n)).map some)) := by
  have im := h.image hsp
  refine ⟨⟨im.allPairs, ?_⟩, ⟨im.allPools, ?_⟩, ⟨im.allDeposits, ?_⟩, ⟨im.allWithdraws, ?_⟩, ⟨im.allOrders, ?_⟩,
    fun i hi => ⟨im.poolsByPair hi, im.ordersByPair hi⟩,
    fun n hn hl => ⟨im.depositsBy hsp hn hl, im.withdrawsBy hsp hn hl, im.ordersBy hsp hn hl⟩⟩
  · exact List.Pairwise.imp (fun hlt => by rw [keyLt_iff] at hlt; simpa [Pair.key] using hlt) im.pairsS
  · exact List.Pairwise.imp (fun hlt => by rw [keyLt_iff] at hlt; simpa [PoolRec.key] using hlt) im.poolsS
  · exact List.Pairwise.imp (fun hlt => by rw [keyLt_iff] at hlt; exact hlt) im.depsS
  · exact List.Pairwise.imp (fun hlt => by rw [keyLt_iff] at hlt; exact hlt) im.wdsS
  · exact List.Pairwise.imp (fun hlt => by rw [keyLt_iff] at hlt; exact hlt) im.ordersS

/-- Satisfiable: two orders of two accounts, whose names are short enough. -/
example : (∀ n, (Demo.enc.addr (.user n)).length ≤ 245) ∧ ∃ s kv, Written Demo.enc s kv ∧ s.orders.map (·.orderer) = [2, 3] :=
  ⟨fun n => le_trans (Demo.spell_short 1 n) (by decide), Demo.onDisk Demo.placed _ (by decide +kernel)⟩

/-- The counters of market-making orders are read as they were recorded, 0 if there is none; the iteration over them reports
each one once. -/
theorem C68_counters (hsp : Spelling enc) (h : Written enc s kv) :
    (∀ a p, Name (enc.addr (.user a)) → p < 2 ^ 64 →
      KV.getNumMMOrders enc kv a (u64 p) = some (UInt32.ofNat ((s.numMM a p).getD 0))) ∧
    ((∀ n, (enc.addr (.user n)).length ≤ 245) → ∃ l, KV.allNumMM kv = some l ∧ l.Nodup ∧
      ∀ x, x ∈ l ↔ ∃ a p n, s.numMM a p = some n ∧ x = ((enc.addr (.user a), u64 p), UInt32.ofNat n)) := by
  have im := h.image hsp
  exact ⟨fun a p ha hp => im.numMM hsp ha hp, fun hl => im.allNumMM hsp hl⟩

/-- Satisfiable: account 2 has one market-making order. -/
example : ∃ s kv, Written Demo.enc s kv ∧ s.numMM 2 1 = some 1 := Demo.onDisk Demo.placed _ (by decide +kernel)

end Verif.Props

import Verif.Proofs.DiskBytes
import Verif.Proofs.DiskDemo
/-!
# The store of the module as bytes (C80)

`Written enc s kv` (C68): the keeper's store calls along a history led to the records of `s` and to the entries `kv`.  `Disk.bytes txt kv` are these
entries with their values marshalled, what the chain commits to.
-/
namespace Verif.Props
open Verif Verif.Dex Verif.Dex.KV Verif.Dex.Keys Verif.Spec

variable {txt enc : Enc} {s s' : State} {kv kv' : Store}

/-- **C80** Every value the keeper puts under a key can be marshalled, if the numbers in the records fit their fields; and under the key of
a record are bytes that are unmarshalled to this record. -/
theorem C80_records_on_disk (hsp : Spelling enc) (h : Written enc s kv) (hf : Fitting txt s) : ∃ d, Disk.bytes txt kv = some d ∧
    (∀ p ∈ s.pairs, ∃ b, (getPairKey (u64 p.id), b) ∈ d ∧ Pb.unmarshal Pb.pairFields b {} = some (Disk.pair txt p)) ∧
    (∀ p ∈ s.pools, ∃ b, (getPoolKey (u64 p.id), b) ∈ d ∧ Pb.unmarshal Pb.poolFields b {} = some (Disk.pool txt p)) ∧
    (∀ r ∈ s.deposits, ∃ b, (getDepositRequestKey (u64 r.poolId) (u64 r.id), b) ∈ d ∧
      Pb.unmarshal Pb.depositRequestFields b {} = some (Disk.deposit txt r)) ∧
    (∀ r ∈ s.withdraws, ∃ b, (getWithdrawRequestKey (u64 r.poolId) (u64 r.id), b) ∈ d ∧
      Pb.unmarshal Pb.withdrawRequestFields b {} = some (Disk.withdraw txt r)) ∧
    (∀ o ∈ s.orders, ∃ b, (getOrderKey (u64 o.pairId) (u64 o.id), b) ∈ d ∧ Pb.unmarshal Pb.orderFields b {} = some (Disk.order txt o)) := by
  have hi := h.image hsp
  obtain ⟨d, hd⟩ := Disk.Image.bytes_some hi hf
  have key : ∀ {e : Spec.Keys.Entity} {k : Bytes} {v : Val}, Spec.Keys.keyOf e = some k → Holds enc s e v → ∃ b, Disk.value txt v = some b ∧ (k, b) ∈ d :=
    fun hk hh => Disk.bytes_mem hd (_, _) ((hi.rep.mem _ _).2 ⟨_, hi.rep.wf _ _ hh, hk, hh⟩)
  refine ⟨d, hd, fun p hp => ?_, fun p hp => ?_, fun r hr => ?_, fun r hr => ?_, fun o ho => ?_⟩
  · obtain ⟨b, h1, h2⟩ := key (e := .pair (u64 p.id)) rfl (show Holds enc s _ (.pair p) from ⟨p, hp, rfl, rfl⟩)
    rw [Disk.value, (Disk.pair_sent hf hp).marshal] at h1
    cases h1
    exact ⟨_, h2, (Disk.pair_sent hf hp).unmarshal⟩
  · obtain ⟨b, h1, h2⟩ := key (e := .pool (u64 p.id)) rfl (show Holds enc s _ (.pool p) from ⟨p, hp, rfl, rfl⟩)
    rw [Disk.value, (Disk.pool_sent hf hp).marshal] at h1
    cases h1
    exact ⟨_, h2, (Disk.pool_sent hf hp).unmarshal⟩
  · obtain ⟨b, h1, h2⟩ := key (e := .deposit (u64 r.poolId) (u64 r.id)) rfl (show Holds enc s _ (.deposit r) from ⟨r, hr, rfl, rfl, rfl⟩)
    rw [Disk.value, (Disk.deposit_sent hf hr).marshal] at h1
    cases h1
    exact ⟨_, h2, (Disk.deposit_sent hf hr).unmarshal⟩
  · obtain ⟨b, h1, h2⟩ := key (e := .withdraw (u64 r.poolId) (u64 r.id)) rfl (show Holds enc s _ (.withdraw r) from ⟨r, hr, rfl, rfl, rfl⟩)
    rw [Disk.value, (Disk.withdraw_sent hf hr).marshal] at h1
    cases h1
    exact ⟨_, h2, (Disk.withdraw_sent hf hr).unmarshal⟩
  · obtain ⟨b, h1, h2⟩ := key (e := .order (u64 o.pairId) (u64 o.id)) rfl (show Holds enc s _ (.order o) from ⟨o, ho, rfl, rfl, rfl⟩)
    rw [Disk.value, (Disk.order_sent hf ho).marshal] at h1
    cases h1
    exact ⟨_, h2, (Disk.order_sent hf ho).unmarshal⟩

/-- **C80** The bytes of the store determine the records: two histories that end with the same bytes end with the same last ids, pairs, pools,
requests and orders, and the same counters of market-making orders. -/
theorem C80_bytes_determine_records (hsp : Spelling enc) (ht : Texts txt) (h : Written enc s kv) (h' : Written enc s' kv') (hf : Fitting txt s)
    (hf' : Fitting txt s') {d : List (Bytes × Bytes)} (hd : Disk.bytes txt kv = some d) (hd' : Disk.bytes txt kv' = some d) :
    s.lastPairId = s'.lastPairId ∧ s.lastPoolId = s'.lastPoolId ∧ s.pairs = s'.pairs ∧ s.pools = s'.pools ∧ s.deposits = s'.deposits ∧
      s.withdraws = s'.withdraws ∧ s.orders = s'.orders ∧
      ∀ a p, Spec.Keys.Name (enc.addr (.user a)) → p < 2 ^ 64 → (s.numMM a p).getD 0 % 2 ^ 32 = (s'.numMM a p).getD 0 % 2 ^ 32 := by
  have hi := h.image hsp
  have hi' := h'.image hsp
  have e := Disk.image_bytes_eq ht hi hi' hf hf' hd hd'
  subst e
  refine ⟨?_, ?_, ?_, ?_, ?_, ?_, ?_, fun a p ha hp => ?_⟩
  · exact (u64_inj hi.stor.lastPairId hi'.stor.lastPairId).1 (Option.some.inj (hi.lastPairId.symm.trans hi'.lastPairId))
  · exact (u64_inj hi.stor.lastPoolId hi'.stor.lastPoolId).1 (Option.some.inj (hi.lastPoolId.symm.trans hi'.lastPoolId))
  · exact Option.some.inj (hi.allPairs.symm.trans hi'.allPairs)
  · exact Option.some.inj (hi.allPools.symm.trans hi'.allPools)
  · exact Option.some.inj (hi.allDeposits.symm.trans hi'.allDeposits)
  · exact Option.some.inj (hi.allWithdraws.symm.trans hi'.allWithdraws)
  · exact Option.some.inj (hi.allOrders.symm.trans hi'.allOrders)
  · have := Option.some.inj ((hi.numMM hsp ha hp).symm.trans (hi'.numMM hsp ha hp))
    have := congrArg UInt32.toNat this
    simpa [UInt32.toNat_ofNat', State.getNumMM] using this

/-! A concrete case: a spelling of all names, and the records of a history with a deposit request and two orders. -/

/-- One byte for the kind, then the number in decimal. -/
def demoTxt : Enc where
  denom
    | .native n => 1 :: Pb.text n
    | .pool n => 2 :: Pb.text n
  addr
    | .user n => 1 :: Pb.text n
    | .globalEscrow => [2]
    | .pairEscrow n => 3 :: Pb.text n
    | .poolReserve n => 4 :: Pb.text n
    | .dexModule => [5]
    | .other n => 6 :: Pb.text n

theorem text_inj {a b : Nat} (h : Pb.text (a : Int) = Pb.text (b : Int)) : a = b := by
  have := (Pb.parse_text a).symm.trans ((congrArg Pb.parseText h).trans (Pb.parse_text b))
  simpa using this

theorem demoTexts : Texts demoTxt where
  denom := fun d d' h => by
    cases d <;> cases d' <;> simp only [demoTxt, List.cons.injEq] at h
    · rw [text_inj h.2]
    · exact absurd h.1 (by decide)
    · exact absurd h.1 (by decide)
    · rw [text_inj h.2]
  addr := fun d d' h => by
    cases d <;> cases d' <;> simp only [demoTxt, List.cons.injEq] at h <;>
      first | rfl | exact absurd h.1 (by decide) | rw [text_inj h.2]

example : Spelling Demo.enc ∧ Texts demoTxt ∧ ∃ s kv, Written Demo.enc s kv ∧ Fitting demoTxt s ∧ s.deposits.length = 1 ∧ s.orders.length = 2 := by
  refine ⟨Demo.spelling, demoTexts, ?_⟩
  obtain ⟨s, kv, h, h1, h2, h3, h4, h5⟩ := Demo.onDisk Demo.placed (fun s =>
    s.pairs = [⟨1, .native 0, .native 1, 2, none, 1⟩] ∧ s.pools = [⟨1, 1, 1, none, 1, 0, false⟩] ∧
    s.deposits = [⟨1, 1, 1, 2, [⟨.native 0, 100000⟩, ⟨.native 1, 50000⟩], [], 0, .notExecuted⟩] ∧ s.withdraws = [] ∧
    s.orders = [⟨.mm, 1, 1, 1, 2, .buy, .native 1, .native 0, 2020, 2020, 0, 1010000000000000000, 2000, 2000, 1, 100, .notExecuted⟩,
      ⟨.limit, 2, 1, 1, 3, .sell, .native 0, .native 1, 30000, 30000, 0, 990000000000000000, 30000, 30000, 1, 100, .notExecuted⟩])
    (by decide +kernel)
  refine ⟨s, kv, h, ⟨?_, ?_, ?_, ?_, ?_⟩, by rw [h3]; rfl, by rw [h5]; rfl⟩
  · rw [h1]; intro p hp; rw [List.mem_singleton] at hp; subst hp
    have hf : (Disk.pair demoTxt ⟨1, .native 0, .native 1, 2, none, 1⟩).Fits := ⟨by decide, by decide, (fun v e => by cases e), by decide⟩
    exact ⟨hf, by rw [← (Pb.pair_writes hf).size]; decide +kernel⟩
  · rw [h2]; intro p hp; rw [List.mem_singleton] at hp; subst hp
    have hf : (Disk.pool demoTxt ⟨1, 1, 1, none, 1, 0, false⟩).Fits :=
      ⟨by decide, by decide, by decide, (fun v e => by cases e), (fun v e => by cases e), by decide, by decide⟩
    exact ⟨hf, by rw [← (Pb.pool_writes hf).size]; decide +kernel⟩
  · rw [h3]; intro r hr; rw [List.mem_singleton] at hr; subst hr
    have hf : (Disk.deposit demoTxt ⟨1, 1, 1, 2, [⟨.native 0, 100000⟩, ⟨.native 1, 50000⟩], [], 0, .notExecuted⟩).Fits :=
      ⟨by decide, by decide, by decide, fun v hv => by
        simp only [Disk.deposit, List.map_cons, List.map_nil, List.mem_cons, List.not_mem_nil, or_false] at hv
        rcases hv with rfl | rfl <;> exact ⟨by decide⟩, fun v hv => absurd hv List.not_mem_nil, ⟨by decide⟩, by decide⟩
    exact ⟨hf, by rw [← (Pb.depositRequest_writes hf).size]; decide +kernel⟩
  · rw [h4]; intro r hr; exact absurd hr List.not_mem_nil
  · rw [h5]; intro o ho
    simp only [List.mem_cons, List.not_mem_nil, or_false] at ho
    rcases ho with rfl | rfl
    all_goals
      refine (fun hf => ⟨hf, by rw [← (Pb.order_writes hf).size]; decide +kernel⟩) ?_
      exact ⟨by decide, by decide, by decide, by decide, by decide, ⟨by decide⟩, ⟨by decide⟩, ⟨by decide⟩, by decide, by decide, by decide, by decide,
        by decide, by decide⟩

end Verif.Props

import Verif.Proofs.Export
import Verif.Proofs.SaneDemo
/-! # C47: genesis export and import; C48: who may change the parameters -/
namespace Verif.Props
open Verif Verif.Amm Verif.Dex Verif.Spec

/-- **C47 (part)** In every reachable state the exported genesis, if it is valid, restores everything the module stores when it is
imported into an empty module, and touches nothing else.  An export exists in every reachable state.  Missing: validity
(`C47_export_valid_iff`, false in general by `C47_export_rejected`) and the functions wired into the application
(`C47_module_export_loses_all`). -/
theorem C47_roundtrip_partial {env : Env} {s : State} (h : Reachable env s) :
    (∃ recs, ListsCounters s recs) ∧
    ∀ recs, ListsCounters s recs → (exportGenesis s recs).validate = true → ∀ s0, EmptyModule s0 →
      ∃ s', initGenesis (exportGenesis s recs) s0 = some s' ∧ SameModule s s' ∧ s'.bank = s0.bank ∧ s'.height = s0.height ∧
        s'.time = s0.time :=
  ⟨counters_listed h.wf, fun _ hr hv _ he => initGenesis_export h.wf he hr hv⟩

/-- **C47** In a sane chain the exported genesis is valid exactly if no record dates from height 0, no order expires at the zero
time, and every stored deposit request offered both coins of its pair; otherwise the import panics. -/
theorem C47_export_valid_iff {env : Env} {s : State} (hc : SaneChain env s) {recs : List NumMMRecord} (hr : ListsCounters s recs) :
    ((exportGenesis s recs).validate = true ↔ Exportable s) ∧
    (¬ Exportable s → ∀ s0, initGenesis (exportGenesis s recs) s0 = none) := by
  have h := export_valid_iff hc hr
  refine ⟨h, fun hn s0 => ?_⟩
  unfold initGenesis
  rw [if_pos]
  by_contra hv
  exact hn (h.1 (by simpa using hv))

/-- **C47 (part)** In a sane chain, exporting an exportable state and importing it restores the exchange. -/
theorem C47_export_import_partial {env : Env} {s : State} (hc : SaneChain env s) (he : Exportable s) :
    ∃ recs, ListsCounters s recs ∧ ∀ s0, EmptyModule s0 → ∃ s', initGenesis (exportGenesis s recs) s0 = some s' ∧ SameModule s s' := by
  have hw := (sane_of_chain hc).reach.wf
  obtain ⟨recs, hr⟩ := counters_listed hw
  refine ⟨recs, hr, fun s0 h0 => ?_⟩
  obtain ⟨s', h1, h2, _⟩ := initGenesis_export hw h0 hr ((export_valid_iff hc hr).2 he)
  exact ⟨s', h1, h2⟩

/-- **C47 is false for single-coin deposits**: after a deposit of one coin into a ranged pool, which the exchange accepts and
executes, the chain cannot be exported and imported again. -/
theorem C47_export_rejected : ∃ s, SaneChain Demo.env s ∧ SaneState Demo.env s ∧ (∃ r ∈ s.deposits, r.status = .succeeded) ∧
    ∀ recs, ListsCounters s recs → ∀ s0, initGenesis (exportGenesis s recs) s0 = none := by
  obtain ⟨s, h1, h2, h3, h4⟩ := Demo.saneReach
    [.createPair ⟨1, .native 0, .native 1⟩,
     .createRangedPool ⟨1, 1, [⟨.native 0, 1000000⟩], 1000000000000000000, 2000000000000000000, 1000000000000000000⟩,
     .deposit ⟨2, 1, [⟨.native 0, 50000⟩]⟩, .endBlock]
    (fun s => (∃ r ∈ s.deposits, r.status = .succeeded) ∧ (∃ r ∈ s.deposits, ∃ pool ∈ s.pools, pool.id = r.poolId ∧ ∃ pair ∈ s.pairs,
      pair.id = pool.pairId ∧ amountOf r.coins pair.quote = 0))
    (by decide +kernel)
  refine ⟨s, h1, h2, h3, fun recs hr s0 => (C47_export_valid_iff h1 hr).2 ?_ s0⟩
  intro he
  obtain ⟨r, hr, pool, hp, e1, pair, hq, e2, e3⟩ := h4
  exact (he.bothCoins r hr pool hp e1 pair hq e2).2 e3

/-- **C47 is false for the module**: whatever the state, the genesis the application exports holds only the parameters, and
importing it into an empty module leaves the module empty. -/
theorem C47_module_export_loses_all {default : Params} {s s0 s' : State} (he : EmptyModule s0)
    (h : moduleInitGenesis (moduleExportGenesis default s) s0 = some s') :
    EmptyModule s' ∧ s'.params = s.params ∧ s'.lastPairId = s0.lastPairId ∧ s'.lastPoolId = s0.lastPoolId := by
  unfold moduleInitGenesis setParams at h
  split at h
  · cases h
    exact ⟨⟨he.pairs, he.pools, he.deposits, he.withdraws, he.orders, he.numMM⟩, rfl, rfl, rfl⟩
  · cases h

/-- A reachable state with a pair, a pool and unfinished orders, all of which the application's export drops. -/
theorem C47_module_export_not_faithful : ∃ s, SaneChain Demo.env s ∧ (∃ o ∈ s.orders, Unfinished o) ∧ s.pools ≠ [] ∧
    ∀ default s0 s', EmptyModule s0 → moduleInitGenesis (moduleExportGenesis default s) s0 = some s' → ¬ SameModule s s' := by
  obtain ⟨s, h1, h2, h3, h4⟩ := Demo.saneReach
    [.createPair ⟨1, .native 0, .native 1⟩, .createPool ⟨1, 1, [⟨.native 0, 1000000⟩, ⟨.native 1, 1000000⟩]⟩,
     .limitOrder ⟨3, 1, .sell, ⟨.native 0, 20000⟩, .native 1, 1000000000000000000, 20000, 100⟩]
    (fun s => (∃ o ∈ s.orders, Unfinished o) ∧ s.pools ≠ []) (by decide +kernel)
  refine ⟨s, h1, h3, h4, fun default s0 s' he h hs => ?_⟩
  have := (C47_module_export_loses_all he h).1.pools
  rw [hs.pools] at this
  exact h4 this

/-- Non-vacuity of the positive part: a sane chain with trades, a pool, an executed deposit and a live market-making order in an
exportable state. -/
example : ∃ s, SaneChain Demo.env s ∧ Exportable s ∧ s.deposits ≠ [] ∧ s.orders ≠ [] ∧ s.numMM 3 1 = some 1 := by
  obtain ⟨s, h1, h2, h3, h4, h5, h6, h7⟩ := Demo.saneReach
    [.createPair ⟨1, .native 0, .native 1⟩, .createPool ⟨1, 1, [⟨.native 0, 1000000⟩, ⟨.native 1, 1000000⟩]⟩,
     .deposit ⟨2, 1, [⟨.native 0, 50000⟩, ⟨.native 1, 50000⟩]⟩, .endBlock,
     .mmOrder ⟨3, 1, .sell, ⟨.native 0, 20000⟩, .native 1, 2000000000000000000, 20000, 100⟩]
    (fun s => (∀ r ∈ s.deposits, r.msgHeight ≠ 0 ∧ ∀ pool ∈ s.pools, pool.id = r.poolId → ∀ pair ∈ s.pairs, pair.id = pool.pairId →
        amountOf r.coins pair.base ≠ 0 ∧ amountOf r.coins pair.quote ≠ 0) ∧ s.withdraws = [] ∧
      (∀ o ∈ s.orders, o.msgHeight ≠ 0 ∧ o.expireAt ≠ zeroTime) ∧ (s.deposits ≠ [] ∧ s.orders ≠ []) ∧ s.numMM 3 1 = some 1)
    (by decide +kernel)
  exact ⟨s, h1, ⟨fun r hr => (h3 r hr).1, by rw [h4]; simp, fun o ho => (h5 o ho).1, fun o ho => (h5 o ho).2, fun r hr => (h3 r hr).2⟩,
    h6.1, h6.2, h7⟩

/-- **C48 is false**: a keeper can only be built with a valid authority, and it then refuses every parameter update that this
authority signs; only a message with an empty authority would pass. -/
theorem C48_authority_rejected (valid : String → Bool) (hempty : valid "" = false) (authority : String) (k : KeeperCfg)
    (hk : newKeeper valid authority = some k) :
    (∀ m s, m.authority = authority → updateParams k m s = none) ∧ (∀ m s s', updateParams k m s = some s' → m.authority = "") := by
  unfold newKeeper at hk
  split at hk
  · cases hk
  · rename_i hv
    have hk := Option.some.inj hk
    subst hk
    refine ⟨fun m s e => ?_, fun m s s' h => ?_⟩
    · unfold updateParams KeeperCfg.getAuthority
      rw [if_pos]
      intro e2
      rw [← e, ← e2] at hv
      exact hv hempty
    · unfold updateParams KeeperCfg.getAuthority at h
      split at h
      · cases h
      · rename_i e
        exact (not_not.1 e).symm

/-- **C48 (part)** For a keeper that holds an authority, an update succeeds exactly if it names that authority and its
parameters are valid, and it then changes the parameters and nothing else.  Missing: the keeper that `NewKeeper` builds holds
no authority (`C48_authority_rejected`). -/
theorem C48_update_exact_partial (k : KeeperCfg) (m : MsgUpdateParams) (s s' : State) :
    updateParams k m s = some s' ↔ m.authority = k.authority ∧ m.params.validate = true ∧ s' = { s with params := m.params } := by
  unfold updateParams setParams KeeperCfg.getAuthority
  by_cases h1 : k.authority = m.authority
  · by_cases h2 : m.params.validate = true
    · rw [if_neg (not_not.2 h1), if_pos h2]
      exact ⟨fun h => ⟨h1.symm, h2, (Option.some.inj h).symm⟩, fun h => congrArg some h.2.2.symm⟩
    · simp [h2]
  · rw [if_pos h1]
    exact ⟨fun h => (by cases h), fun h => absurd h.1.symm h1⟩

/-- Non-vacuity: an address is a valid authority, the keeper is built, and a valid update by another keeper's authority works. -/
example : (newKeeper (fun a => a != "") "defund1gov").isSome = true ∧
    (updateParams ⟨"defund1gov"⟩ ⟨"defund1gov", Demo.params⟩ Demo.s0).isSome = true := by decide +kernel

end Verif.Props

import Verif.Spec.State
/-! # Specification vocabulary: what can be said about a record before and after a history (C39-C45) -/
namespace Verif.Spec
open Verif Verif.Dex

/-- The same order, with the same terms: only amounts still open, paid and received, and the status, may differ. -/
def SameTerms (a b : OrderRec) : Prop :=
  b = { a with remaining := b.remaining, received := b.received, openAmt := b.openAmt, status := b.status }

/-- The same deposit request; only its outcome may differ. -/
def SameDeposit (a b : DepReq) : Prop := b = { a with accepted := b.accepted, minted := b.minted, status := b.status }

/-- The same withdraw request; only its outcome may differ. -/
def SameWithdraw (a b : WdReq) : Prop := b = { a with withdrawn := b.withdrawn, status := b.status }

/-- The parameters satisfied `P` at every moment of the history leading to `s`. -/
def ReachableWith (env : Env) (P : Params → Prop) (s : State) : Prop :=
  ∃ s0 ops, Genesis s0 ∧ P s0.params ∧ (∀ p, Op.setParams p ∈ ops → P p) ∧ run env ops s0 = some s

/-- The deposit request `r` was accepted: the coins go to the global escrow, the request gets the next id of its pool, and
nothing else changes. -/
structure DepositAccepted (m : MsgDeposit) (p : PoolRec) (r : DepReq) (s s' : State) : Prop where
  pool : p ∈ s.pools ∧ p.id = m.poolId ∧ p.disabled = false
  request : r = ⟨p.lastDepositId + 1, m.poolId, s.height, m.depositor, m.coins, [], 0, .notExecuted⟩
  new : ∀ x ∈ s.deposits, x.poolId = p.id → x.id < r.id
  deposits : ∀ x, x ∈ s'.deposits ↔ x ∈ s.deposits ∨ x = r
  pools : ∀ x, x ∈ s'.pools ↔ x = { p with lastDepositId := p.lastDepositId + 1 } ∨ (x ∈ s.pools ∧ x ≠ p)
  bank : ∀ a d, s'.bank.bal a d = s.bank.bal a d + transferEffect ⟨.user m.depositor, .globalEscrow, m.coins⟩ a d
  supply : s'.bank.supply = s.bank.supply
  rest : s'.params = s.params ∧ s'.lastPairId = s.lastPairId ∧ s'.lastPoolId = s.lastPoolId ∧ s'.pairs = s.pairs ∧
    s'.withdraws = s.withdraws ∧ s'.orders = s.orders ∧ s'.numMM = s.numMM ∧ s'.height = s.height ∧ s'.time = s.time

/-- The withdraw request `r` was accepted. -/
structure WithdrawAccepted (m : MsgWithdraw) (p : PoolRec) (r : WdReq) (s s' : State) : Prop where
  pool : p ∈ s.pools ∧ p.id = m.poolId ∧ p.disabled = false
  coin : m.coin.denom = .pool p.id
  request : r = ⟨p.lastWithdrawId + 1, m.poolId, s.height, m.withdrawer, m.coin, [], .notExecuted⟩
  new : ∀ x ∈ s.withdraws, x.poolId = p.id → x.id < r.id
  withdraws : ∀ x, x ∈ s'.withdraws ↔ x ∈ s.withdraws ∨ x = r
  pools : ∀ x, x ∈ s'.pools ↔ x = { p with lastWithdrawId := p.lastWithdrawId + 1 } ∨ (x ∈ s.pools ∧ x ≠ p)
  bank : ∀ a d, s'.bank.bal a d = s.bank.bal a d + transferEffect ⟨.user m.withdrawer, .globalEscrow, [m.coin]⟩ a d
  supply : s'.bank.supply = s.bank.supply
  rest : s'.params = s.params ∧ s'.lastPairId = s.lastPairId ∧ s'.lastPoolId = s.lastPoolId ∧ s'.pairs = s.pairs ∧
    s'.deposits = s.deposits ∧ s'.orders = s.orders ∧ s'.numMM = s.numMM ∧ s'.height = s.height ∧ s'.time = s.time

/-- The number of active pools of a pair. -/
def activePools (s : State) (pairId : Nat) : Nat := (s.pools.filter (fun p => decide (p.pairId = pairId ∧ p.disabled = false))).length

/-- A new active pool was created on a pair: it gets the next id, its reserve account gets the coins `coins` and the fee
collector the pool creation fee, both from the creator; the creator gets the `minted` pool coins; nothing else changes. -/
structure PoolCreated (pairId creator : Nat) (range : Option (Int × Int)) (coins : Coins) (minted : Int) (s s' : State) : Prop where
  pair : ∃ q ∈ s.pairs, q.id = pairId
  cap : activePools s pairId < s.params.maxNumActivePools
  id : s'.lastPoolId = s.lastPoolId + 1
  pools : ∀ x, x ∈ s'.pools ↔ x ∈ s.pools ∨ x = ⟨s.lastPoolId + 1, pairId, creator, range, 0, 0, false⟩
  mintedOk : 0 < minted ∧ s.params.minInitialPoolCoinSupply ≤ minted
  supply : ∀ d, s'.bank.supply d = s.bank.supply d + (if d = .pool (s.lastPoolId + 1) then minted else 0)
  noPrevious : s.bank.supply (.pool (s.lastPoolId + 1)) = 0
  bank : ∀ a d, s'.bank.bal a d = s.bank.bal a d + transferEffect ⟨.user creator, .poolReserve (s.lastPoolId + 1), coins⟩ a d +
    transferEffect ⟨.user creator, s.params.feeCollector, s.params.poolCreationFee⟩ a d +
    (if a = .user creator ∧ d = .pool (s.lastPoolId + 1) then minted else 0)
  rest : s'.params = s.params ∧ s'.lastPairId = s.lastPairId ∧ s'.pairs = s.pairs ∧ s'.deposits = s.deposits ∧
    s'.withdraws = s.withdraws ∧ s'.orders = s.orders ∧ s'.numMM = s.numMM ∧ s'.height = s.height ∧ s'.time = s.time

/-- The number of decimal digits of `x ≥ 0`. -/
def Digits (x : Int) (n : Nat) : Prop := 1 ≤ n ∧ x < 10 ^ n ∧ (1 < n → 10 ^ (n - 1) ≤ x)

/-- The number of pool coins minted for the first deposit of `x` and `y`: the power of ten with half as many zeros, rounded up, as the
amounts together have digits, but at least the minimum. -/
def InitialSupply (x y atLeast minted : Int) : Prop := ∃ n k : Nat, Digits x n ∧ Digits y k ∧ minted = max (10 ^ ((n + k + 1) / 2)) atLeast

end Verif.Spec

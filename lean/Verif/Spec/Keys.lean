import Verif.Model.Keys
/-!
# Specification vocabulary for store keys

`Entity` lists everything the module keeps in its store; `keyOf` is the key under which it is kept.
-/
namespace Verif.Spec.Keys
open Verif.Dex.Keys

/-- Everything the module stores: records, index entries, counters and parameters. -/
inductive Entity where
  | params
  | lastPairId
  | lastPoolId
  | pair (id : UInt64)
  | pairIndex (base quote : Bytes)
  | pairByDenoms (denomA denomB : Bytes) (pairId : UInt64)
  | pool (id : UInt64)
  | poolByReserve (addr : Bytes)
  | poolByPair (pairId poolId : UInt64)
  | deposit (poolId id : UInt64)
  | depositIndex (depositor : Bytes) (poolId id : UInt64)
  | withdraw (poolId id : UInt64)
  | withdrawIndex (withdrawer : Bytes) (poolId id : UInt64)
  | order (pairId id : UInt64)
  | orderIndex (orderer : Bytes) (pairId id : UInt64)
  | numMM (orderer : Bytes) (pairId : UInt64)
  deriving DecidableEq

/-- A denom or address of 1 to 255 bytes. -/
def Name (b : Bytes) : Prop := 1 ≤ b.length ∧ b.length ≤ 255

/-- Denoms and addresses in the entity have 1 to 255 bytes. -/
def Entity.WellFormed : Entity → Prop
  | .pairIndex a b => Name a ∧ Name b
  | .pairByDenoms a b _ => Name a ∧ Name b
  | .poolByReserve a => Name a
  | .depositIndex a _ _ => Name a
  | .withdrawIndex a _ _ => Name a
  | .orderIndex a _ _ => Name a
  | .numMM a _ => Name a
  | _ => True

/-- The store key of an entity. -/
def keyOf : Entity → Option Bytes
  | .params => some paramsKey
  | .lastPairId => some lastPairIdKey
  | .lastPoolId => some lastPoolIdKey
  | .pair id => some (getPairKey id)
  | .pairIndex a b => some (getPairIndexKey a b)
  | .pairByDenoms a b id => some (getPairsByDenomsIndexKey a b id)
  | .pool id => some (getPoolKey id)
  | .poolByReserve a => getPoolByReserveAddressIndexKey a
  | .poolByPair p q => some (getPoolsByPairIndexKey p q)
  | .deposit p i => some (getDepositRequestKey p i)
  | .depositIndex a p i => getDepositRequestIndexKey a p i
  | .withdraw p i => some (getWithdrawRequestKey p i)
  | .withdrawIndex a p i => getWithdrawRequestIndexKey a p i
  | .order p i => some (getOrderKey p i)
  | .orderIndex a p i => getOrderIndexKey a p i
  | .numMM a p => getNumMMOrdersKey a p

/-- The entities found by a scan of the store with this key prefix are exactly those satisfying `P`. -/
def ScanFinds (pre : Bytes) (P : Entity → Prop) : Prop :=
  ∀ e k, e.WellFormed → keyOf e = some k → (pre <+: k ↔ P e)

end Verif.Spec.Keys

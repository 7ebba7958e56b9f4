import Verif.Model.Bank
import Verif.Model.Pool
/-!
# Messages: model of x/dex/types/msgs.go

The signer of a message is an externally owned account, given by its number.  Addresses and denoms are valid by
construction; the direction is one of the two valid ones by construction.
-/
namespace Verif.Dex
open Verif Verif.Amm

/-- `MsgCreatePair` (x/dex/types/tx.pb.go; msgs.go:42-48). -/
structure MsgCreatePair where
  creator : Nat
  base : Denom
  quote : Denom
  deriving DecidableEq, Repr

/-- `MsgCreatePair.ValidateBasic` (x/dex/types/msgs.go:54-68). -/
def MsgCreatePair.validateBasic (m : MsgCreatePair) : Bool := m.base != m.quote

/-- `MsgCreatePool` (x/dex/types/msgs.go:91-101). -/
structure MsgCreatePool where
  creator : Nat
  pairId : Nat
  coins : Coins
  deriving DecidableEq, Repr

/-- `MsgCreatePool.ValidateBasic` (x/dex/types/msgs.go:107-126). -/
def MsgCreatePool.validateBasic (m : MsgCreatePool) : Bool :=
  if m.pairId = 0 then false
  else if coinsValid m.coins = false then false
  else if m.coins.length ≠ 2 then false
  else if m.coins.any (fun c => c.amt > maxCoinAmount) then false
  else true

/-- `MsgCreateRangedPool` (x/dex/types/msgs.go:149-165). -/
structure MsgCreateRangedPool where
  creator : Nat
  pairId : Nat
  coins : Coins
  minPrice : Int
  maxPrice : Int
  initialPrice : Int
  deriving DecidableEq, Repr

/-- `MsgCreateRangedPool.ValidateBasic` (x/dex/types/msgs.go:171-193). -/
def MsgCreateRangedPool.validateBasic (m : MsgCreateRangedPool) : Bool :=
  if m.pairId = 0 then false
  else if coinsValid m.coins = false then false
  else if m.coins.length = 0 ∨ m.coins.length > 2 then false
  else if m.coins.any (fun c => c.amt > maxCoinAmount) then false
  else validateRangedPoolParams m.minPrice m.maxPrice m.initialPrice

/-- `MsgDeposit` (x/dex/types/msgs.go:216-226). -/
structure MsgDeposit where
  depositor : Nat
  poolId : Nat
  coins : Coins
  deriving DecidableEq, Repr

/-- `MsgDeposit.ValidateBasic` (x/dex/types/msgs.go:232-246). -/
def MsgDeposit.validateBasic (m : MsgDeposit) : Bool :=
  if m.poolId = 0 then false
  else if coinsValid m.coins = false then false
  else if m.coins.length = 0 ∨ m.coins.length > 2 then false
  else true

/-- `MsgWithdraw` (x/dex/types/msgs.go:269-279). -/
structure MsgWithdraw where
  withdrawer : Nat
  poolId : Nat
  coin : Coin
  deriving DecidableEq, Repr

/-- `MsgWithdraw.ValidateBasic` (x/dex/types/msgs.go:285-299). -/
def MsgWithdraw.validateBasic (m : MsgWithdraw) : Bool :=
  if m.poolId = 0 then false
  else if ¬ 0 < m.coin.amt then false
  else true

/-- `MsgLimitOrder` and `MsgMMOrder` (x/dex/types/msgs.go:322-342, :501-521), which have the same fields. -/
structure MsgLimitOrder where
  orderer : Nat
  pairId : Nat
  dir : Dir
  offer : Coin
  demand : Denom
  price : Int
  amt : Int
  lifespan : Int
  deriving DecidableEq, Repr

/-- `MsgLimitOrder.ValidateBasic` (x/dex/types/msgs.go:348-396). -/
def MsgLimitOrder.validateBasic (m : MsgLimitOrder) : Bool :=
  if m.pairId = 0 then false
  else if ¬ 0 < m.price then false
  else if m.offer.amt < 0 then false
  else if m.offer.amt < minCoinAmount then false
  else if m.offer.amt > maxCoinAmount then false
  else if m.amt < minCoinAmount then false
  else if m.amt > maxCoinAmount then false
  else if m.offer.amt < offerCoinAmount m.dir m.price m.amt then false
  else if m.offer.denom = m.demand then false
  else if m.lifespan < 0 then false
  else true

/-- `MsgMMOrder.ValidateBasic` (x/dex/types/msgs.go:527-575), the same checks as for a limit order. -/
def MsgLimitOrder.validateBasicMM (m : MsgLimitOrder) : Bool :=
  if m.pairId = 0 then false
  else if ¬ 0 < m.price then false
  else if m.offer.amt < 0 then false
  else if m.offer.amt < minCoinAmount then false
  else if m.offer.amt > maxCoinAmount then false
  else if m.amt < minCoinAmount then false
  else if m.amt > maxCoinAmount then false
  else if m.offer.amt < offerCoinAmount m.dir m.price m.amt then false
  else if m.offer.denom = m.demand then false
  else if m.lifespan < 0 then false
  else true

/-- `MsgMarketOrder` (x/dex/types/msgs.go:419-437). -/
structure MsgMarketOrder where
  orderer : Nat
  pairId : Nat
  dir : Dir
  offer : Coin
  demand : Denom
  amt : Int
  lifespan : Int
  deriving DecidableEq, Repr

/-- `MsgMarketOrder.ValidateBasic` (x/dex/types/msgs.go:443-478). -/
def MsgMarketOrder.validateBasic (m : MsgMarketOrder) : Bool :=
  if m.pairId = 0 then false
  else if m.offer.amt < 0 then false
  else if m.offer.amt < minCoinAmount then false
  else if m.offer.amt > maxCoinAmount then false
  else if m.amt < minCoinAmount then false
  else if m.amt > maxCoinAmount then false
  else if m.offer.denom = m.demand then false
  else if m.lifespan < 0 then false
  else true

/-- `MsgCancelOrder` (x/dex/types/msgs.go:598-608). -/
structure MsgCancelOrder where
  orderer : Nat
  pairId : Nat
  orderId : Nat
  deriving DecidableEq, Repr

/-- `MsgCancelOrder.ValidateBasic` (x/dex/types/msgs.go:614-625). -/
def MsgCancelOrder.validateBasic (m : MsgCancelOrder) : Bool :=
  if m.pairId = 0 then false
  else if m.orderId = 0 then false
  else true

/-- `MsgCancelAllOrders` (x/dex/types/msgs.go:648-656). -/
structure MsgCancelAllOrders where
  orderer : Nat
  pairIds : List Nat
  deriving DecidableEq, Repr

/-- Loop of `MsgCancelAllOrders.ValidateBasic` (x/dex/types/msgs.go:666-675); `seen` is the set of ids met so far. -/
def cancelAllLoop : List Nat → List Nat → Bool
  | [], _ => true
  | p :: ps, seen =>
    if p = 0 then false
    else if p ∈ seen then false
    else cancelAllLoop ps (p :: seen)

/-- `MsgCancelAllOrders.ValidateBasic` (x/dex/types/msgs.go:662-677). -/
def MsgCancelAllOrders.validateBasic (m : MsgCancelAllOrders) : Bool := cancelAllLoop m.pairIds []

end Verif.Dex

import Mathlib.Data.List.Basic
/-!
# Bank: the part of the Cosmos SDK bank module the dex keeper calls

The interface is `BankKeeper` (x/dex/types/expected_keepers.go): `SendCoins`, `InputOutputCoins`,
`SendCoinsFromModuleToAccount`, `MintCoins`, `BurnCoins`, `SpendableCoins`, `GetSupply`.  The bank itself is not in this
repository; the model states its contract: a transfer moves coins or fails without effect.  Not modelled: vesting (all
coins are spendable), blocked addresses and send restrictions, 256-bit overflow.
-/
namespace Verif.Dex

/-- Accounts.  `user n` are the externally owned accounts, which sign messages.  The others are derived by hashing
(x/dex/types/params.go:49, x/dex/types/pair.go PairEscrowAddress, x/dex/types/pool.go:23-29); that different names
give different addresses is the collision freedom of the hash.  `other n` are unrelated accounts such as the default fee
and dust collectors (x/dex/types/params.go:26-27). -/
inductive Addr where
  | user (n : Nat)
  | globalEscrow
  | pairEscrow (pairId : Nat)
  | poolReserve (poolId : Nat)
  | dexModule
  | other (n : Nat)
  deriving DecidableEq, Repr

/-- Denoms: `pool n` is `PoolCoinDenom(n)` (x/dex/types/pool.go:32-34), `native n` any other valid denom string. -/
inductive Denom where
  | native (n : Nat)
  | pool (poolId : Nat)
  deriving DecidableEq, Repr

/-- `sdk.Coin`. -/
structure Coin where
  denom : Denom
  amt : Int
  deriving DecidableEq, Repr

/-- `sdk.Coins`.  The order of the entries (sorted by denom in Go) is not modelled. -/
abbrev Coins := List Coin

/-- `Coins.AmountOf`.  A valid `sdk.Coins` has at most one entry per denom, so the sum is the entry. -/
def amountOf (cs : Coins) (d : Denom) : Int := (cs.map (fun c => if c.denom = d then c.amt else 0)).sum

/-- `Coins.Validate`: positive amounts, no duplicate denom (denoms are valid by construction here). -/
def coinsValid (cs : Coins) : Bool := cs.all (fun c => 0 < c.amt) && decide (cs.map (·.denom)).Nodup

/-- Balances and total supplies. -/
structure Bank where
  bal : Addr → Denom → Int
  supply : Denom → Int

/-- `SendCoins` / `InputOutputCoins` with one input and one output (used at x/dex/keeper/swap.go:121, :507,
pool.go:138, :143, :323, :372, :458, :547, pair.go:45 and x/dex/types/util.go:55): all or nothing; negative amounts are invalid
coins and fail. -/
def Bank.send (b : Bank) (src dst : Addr) (cs : Coins) : Option Bank :=
  if (∀ c ∈ cs, 0 ≤ c.amt) ∧ (∀ c ∈ cs, amountOf cs c.denom ≤ b.bal src c.denom) then
    some ⟨fun a d =>
      b.bal a d - (if a = src then amountOf cs d else 0) + (if a = dst then amountOf cs d else 0), b.supply⟩
  else none

/-- `MintCoins` into the dex module account (x/dex/keeper/pool.go:152, :263, :430). -/
def Bank.mint (b : Bank) (c : Coin) : Option Bank :=
  if 0 ≤ c.amt then
    some ⟨fun a d => b.bal a d + (if a = .dexModule ∧ d = c.denom then c.amt else 0),
      fun d => b.supply d + (if d = c.denom then c.amt else 0)⟩
  else none

/-- `BurnCoins` from the dex module account (x/dex/keeper/pool.go:522). -/
def Bank.burn (b : Bank) (c : Coin) : Option Bank :=
  if 0 ≤ c.amt ∧ c.amt ≤ b.bal .dexModule c.denom then
    some ⟨fun a d => b.bal a d - (if a = .dexModule ∧ d = c.denom then c.amt else 0),
      fun d => b.supply d - (if d = c.denom then c.amt else 0)⟩
  else none

/-- One queued transfer, `sendCoinsTx` (x/dex/types/util.go:17-20). -/
structure SendTx where
  src : Addr
  dst : Addr
  amt : Coins
  deriving DecidableEq, Repr

/-- The list of `BulkSendCoinsOperation` (x/dex/types/util.go:23-26).  The Go map from (from, to) to the entry is the lookup
in the list itself. -/
abbrev BulkOp := List SendTx

/-- Adding coins to the entry of `(src, dst)`, which is created at the end if missing (x/dex/types/util.go:38-45).
`Coins.Add` is list concatenation (`amountOf` adds up). -/
def BulkOp.add : BulkOp → Addr → Addr → Coins → BulkOp
  | [], src, dst, cs => [⟨src, dst, cs⟩]
  | t :: ts, src, dst, cs =>
    if t.src = src ∧ t.dst = dst then { t with amt := t.amt ++ cs } :: ts else t :: BulkOp.add ts src dst cs

/-- `QueueSendCoins` (x/dex/types/util.go:36-47): zero coins are skipped.  (The callers build the coins with `sdk.NewCoin`,
which panics on a negative amount; the model lets `Bank.send` fail on it.) -/
def BulkOp.queue (op : BulkOp) (src dst : Addr) (cs : Coins) : BulkOp :=
  if cs.all (fun c => c.amt == 0) then op else op.add src dst cs

/-- `Run` (x/dex/types/util.go:50-62): the transfers in order; the first error stops. -/
def BulkOp.run : BulkOp → Bank → Option Bank
  | [], b => some b
  | t :: ts, b => (b.send t.src t.dst t.amt).bind (BulkOp.run ts)

end Verif.Dex

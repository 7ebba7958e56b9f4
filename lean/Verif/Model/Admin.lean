import Verif.Model.Keeper
/-!
# The keeper's authority and parameter updates (x/dex/keeper/keeper.go, msg_server.go, params.go)

Addresses are bech32 strings here; `valid` says which strings `sdk.AccAddressFromBech32` accepts.
-/
namespace Verif.Dex

/-- The field of `Keeper` (x/dex/keeper/keeper.go:17-26) that `UpdateParams` reads.  The other fields are interfaces. -/
structure KeeperCfg where
  authority : String
  deriving DecidableEq, Repr

/-- `NewKeeper` (x/dex/keeper/keeper.go:29-53): panics on an invalid authority.  The struct literal at :46-52 does not set
`authority` (nor `logger`), so the field keeps the zero value of a Go string. -/
def newKeeper (valid : String → Bool) (authority : String) : Option KeeperCfg :=
  if valid authority = false then none else some { authority := "" }

/-- `GetAuthority` (x/dex/keeper/keeper.go:56-58). -/
def KeeperCfg.getAuthority (k : KeeperCfg) : String := k.authority

/-- `MsgUpdateParams` (x/dex/types/tx.pb.go): the claimed authority, which must sign, and the new parameters. -/
structure MsgUpdateParams where
  authority : String
  params : Params

/-- `SetParams` (x/dex/keeper/params.go:20-22): `SetParamSet` panics on a parameter its validator rejects. -/
def setParams (p : Params) (s : State) : Option State := if p.validate then some { s with params := p } else none

/-- `UpdateParams` (x/dex/keeper/msg_server.go:133-142); `none` is an error or a panic, which reverts the transaction. -/
def updateParams (k : KeeperCfg) (m : MsgUpdateParams) (s : State) : Option State :=
  if k.getAuthority ≠ m.authority then none else setParams m.params s

end Verif.Dex

import Verif.Model.Keys
/-!
# Derived account addresses (x/dex/types/pair.go, pool.go, params.go)

The names and the byte strings that are hashed are modelled; the hash function (SHA-256 of the Go standard library) is left open:
every definition takes it as an argument.  The bech32 text of an address is not modelled.
-/
namespace Verif.Dex.Address
open Verif.Dex.Keys

/-- The bytes of an ASCII string (Go's conversion of a string to bytes). -/
def ascii (cs : List Char) : Bytes := cs.map (fun c => UInt8.ofNat c.toNat)

/-- `AddressType` (x/dex/types/pair.go:14-22); any other number is `other`. -/
inductive AddressType where
  | bytes32
  | bytes20
  | other (n : Nat)

/-- `address.Module` with one derivation key (cosmos-sdk `types/address/hash.go`): `Hash("module", moduleName ++ 0 ++ key)`, where
`Hash(typ, key)` is the hash of the hash of `typ` followed by `key`. -/
def moduleText (hash : Bytes → Bytes) (moduleName name : Bytes) : Bytes :=
  hash (ascii "module".toList) ++ (moduleName ++ [0] ++ name)

/-- `DeriveAddress` (x/dex/types/pair.go:72-81); `crypto.AddressHash` (cometbft) is the first 20 bytes of the hash. -/
def deriveAddress (hash : Bytes → Bytes) (t : AddressType) (moduleName name : Bytes) : Bytes :=
  match t with
  | .bytes32 => hash (moduleText hash moduleName name)
  | .bytes20 => (hash (moduleName ++ name)).take 20
  | .other _ => []

/-- `ModuleName` (x/dex/types/keys.go:12). -/
def moduleName : Bytes := ascii "dex".toList

/-- The accounts of the module: escrows of pairs, reserves of pools, the escrow of requests, the default collectors of fees and dust
(x/dex/types/params.go:26-27, :49), and the module account that mints and burns pool coins. -/
inductive Account where
  | pairEscrow (pairId : UInt64)
  | poolReserve (poolId : UInt64)
  | globalEscrow
  | feeCollector
  | dustCollector
  | moduleAccount
  deriving DecidableEq

/-- `strings.Join([]string{prefix, strconv.FormatUint(id, 10)}, ModuleAddressNameSplitter)` (x/dex/types/pair.go:88, pool.go:27). -/
def numbered (pre : String) (id : UInt64) : Bytes := ascii pre.toList ++ ascii "|".toList ++ ascii (digits id.toNat)

/-- The name an account is derived from (x/dex/types/params.go:26-27, :42-44, :49; pair.go:84-89; pool.go:23-29); the module account is
derived from the name of the module alone. -/
def name : Account → Bytes
  | .pairEscrow id => numbered "PairEscrowAddress" id
  | .poolReserve id => numbered "PoolReserveAddress" id
  | .globalEscrow => ascii "GlobalEscrow".toList
  | .feeCollector => ascii "FeeCollector".toList
  | .dustCollector => ascii "DustCollector".toList
  | .moduleAccount => []

/-- The address of an account: `PairEscrowAddress` (x/dex/types/pair.go:84-89), `PoolReserveAddress` (pool.go:23-29),
`GlobalEscrowAddress` and the default collectors (params.go:26-27, :49), `GetModuleAddress` (cosmos-sdk `NewModuleAddress`: the first
20 bytes of the hash of the module's name). -/
def address (hash : Bytes → Bytes) : Account → Bytes
  | .moduleAccount => (hash moduleName).take 20
  | a => deriveAddress hash .bytes32 moduleName (name a)

/-- The byte string whose hash is the address of an account. -/
def text (hash : Bytes → Bytes) (a : Account) : Bytes := moduleText hash moduleName (name a)

end Verif.Dex.Address

/-!
# Store keys: model of x/dex/types/keys.go and of the pool coin denom of x/dex/types/pool.go

A key is a list of bytes.  Ids are 64-bit unsigned integers, addresses and denoms are lists of bytes.  `none` is a Go panic
or, for `parsePoolCoinDenom`, an error.  Arithmetic on one byte wraps, as in Go, where `2+addrLen` with `addrLen` a byte is
a byte.
-/
namespace Verif.Dex.Keys

/-- Go `[]byte`. -/
abbrev Bytes := List UInt8

/-- `sdk.Uint64ToBigEndian` (cosmos-sdk types/utils.go; used throughout keys.go), `k` bytes of it. -/
def bigEndian : Nat → Nat → Bytes
  | 0, _ => []
  | k + 1, n => UInt8.ofNat (n / 256 ^ k) :: bigEndian k (n % 256 ^ k)

/-- `sdk.Uint64ToBigEndian` (cosmos-sdk types/utils.go). -/
def be64 (n : UInt64) : Bytes := bigEndian 8 n.toNat

/-- Value of a list of bytes, most significant byte first. -/
def fromBigEndian : Bytes → Nat := List.foldl (fun acc b => acc * 256 + b.toNat) 0

/-- `sdk.BigEndianToUint64` (cosmos-sdk types/utils.go): 0 for no bytes, a panic for fewer than 8, else the value of the
first 8. -/
def toUint64 (b : Bytes) : Option UInt64 :=
  if b.length = 0 then some 0
  else if b.length < 8 then none
  else some (UInt64.ofNat (fromBigEndian (b.take 8)))

/-- `LengthPrefixString` (x/dex/types/keys.go:233-241). -/
def lengthPrefixString (s : Bytes) : Bytes := if s.length = 0 then s else UInt8.ofNat s.length :: s

/-- `address.MustLengthPrefix` (cosmos-sdk types/address): the empty address stays empty, more than 255 bytes panic. -/
def mustLengthPrefix (a : Bytes) : Option Bytes :=
  if a.length = 0 then some a else if 255 < a.length then none else some (UInt8.ofNat a.length :: a)

/-- `LastPairIdKey` (x/dex/types/keys.go:25). -/
def lastPairIdKey : Bytes := [0xa0]
/-- `LastPoolIdKey` (x/dex/types/keys.go:26). -/
def lastPoolIdKey : Bytes := [0xa1]
/-- `PairKeyPrefix` (x/dex/types/keys.go:28). -/
def pairKeyPrefix : Bytes := [0xa5]
/-- `PairIndexKeyPrefix` (x/dex/types/keys.go:29). -/
def pairIndexKeyPrefix : Bytes := [0xa6]
/-- `PairsByDenomsIndexKeyPrefix` (x/dex/types/keys.go:30). -/
def pairsByDenomsIndexKeyPrefix : Bytes := [0xa7]
/-- `PoolKeyPrefix` (x/dex/types/keys.go:32). -/
def poolKeyPrefix : Bytes := [0xab]
/-- `PoolByReserveAddressIndexKeyPrefix` (x/dex/types/keys.go:33). -/
def poolByReserveAddressIndexKeyPrefix : Bytes := [0xac]
/-- `PoolsByPairIndexKeyPrefix` (x/dex/types/keys.go:34). -/
def poolsByPairIndexKeyPrefix : Bytes := [0xad]
/-- `DepositRequestKeyPrefix` (x/dex/types/keys.go:36). -/
def depositRequestKeyPrefix : Bytes := [0xb0]
/-- `DepositRequestIndexKeyPrefix` (x/dex/types/keys.go:37). -/
def depositRequestIndexKeyPrefix : Bytes := [0xb4]
/-- `WithdrawRequestKeyPrefix` (x/dex/types/keys.go:38). -/
def withdrawRequestKeyPrefix : Bytes := [0xb1]
/-- `WithdrawRequestIndexKeyPrefix` (x/dex/types/keys.go:39). -/
def withdrawRequestIndexKeyPrefix : Bytes := [0xb5]
/-- `OrderKeyPrefix` (x/dex/types/keys.go:40). -/
def orderKeyPrefix : Bytes := [0xb2]
/-- `OrderIndexKeyPrefix` (x/dex/types/keys.go:41). -/
def orderIndexKeyPrefix : Bytes := [0xb3]
/-- `NumMMOrdersKeyPrefix` (x/dex/types/keys.go:42). -/
def numMMOrdersKeyPrefix : Bytes := [0xb7]
/-- `ParamsKey`, the bytes of "p_dex" (x/dex/types/keys.go:43). -/
def paramsKey : Bytes := [0x70, 0x5f, 0x64, 0x65, 0x78]

/-- `GetPairKey` (x/dex/types/keys.go:47-49). -/
def getPairKey (pairId : UInt64) : Bytes := pairKeyPrefix ++ be64 pairId

/-- `GetPairIndexKey` (x/dex/types/keys.go:52-54). -/
def getPairIndexKey (base quote : Bytes) : Bytes :=
  pairIndexKeyPrefix ++ lengthPrefixString base ++ lengthPrefixString quote

/-- `GetPairsByDenomsIndexKey` (x/dex/types/keys.go:57-59). -/
def getPairsByDenomsIndexKey (denomA denomB : Bytes) (pairId : UInt64) : Bytes :=
  pairsByDenomsIndexKeyPrefix ++ lengthPrefixString denomA ++ lengthPrefixString denomB ++ be64 pairId

/-- `GetPairsByDenomIndexKeyPrefix` (x/dex/types/keys.go:62-64). -/
def getPairsByDenomIndexKeyPrefix (denomA : Bytes) : Bytes := pairsByDenomsIndexKeyPrefix ++ lengthPrefixString denomA

/-- `GetPairsByDenomsIndexKeyPrefix` (x/dex/types/keys.go:67-69). -/
def getPairsByDenomsIndexKeyPrefix (denomA denomB : Bytes) : Bytes :=
  pairsByDenomsIndexKeyPrefix ++ lengthPrefixString denomA ++ lengthPrefixString denomB

/-- `GetPoolKey` (x/dex/types/keys.go:72-74). -/
def getPoolKey (poolId : UInt64) : Bytes := poolKeyPrefix ++ be64 poolId

/-- `GetPoolByReserveAddressIndexKey` (x/dex/types/keys.go:77-79). -/
def getPoolByReserveAddressIndexKey (addr : Bytes) : Option Bytes :=
  (mustLengthPrefix addr).map fun l => poolByReserveAddressIndexKeyPrefix ++ l

/-- `GetPoolsByPairIndexKey` (x/dex/types/keys.go:82-84). -/
def getPoolsByPairIndexKey (pairId poolId : UInt64) : Bytes := poolsByPairIndexKeyPrefix ++ be64 pairId ++ be64 poolId

/-- `GetPoolsByPairIndexKeyPrefix` (x/dex/types/keys.go:87-89). -/
def getPoolsByPairIndexKeyPrefix (pairId : UInt64) : Bytes := poolsByPairIndexKeyPrefix ++ be64 pairId

/-- `GetDepositRequestKey` (x/dex/types/keys.go:92-94). -/
def getDepositRequestKey (poolId id : UInt64) : Bytes := depositRequestKeyPrefix ++ be64 poolId ++ be64 id

/-- `GetDepositRequestIndexKey` (x/dex/types/keys.go:98-101). -/
def getDepositRequestIndexKey (depositor : Bytes) (poolId reqId : UInt64) : Option Bytes :=
  (mustLengthPrefix depositor).map fun l => depositRequestIndexKeyPrefix ++ l ++ be64 poolId ++ be64 reqId

/-- `GetDepositRequestIndexKeyPrefix` (x/dex/types/keys.go:105-107). -/
def getDepositRequestIndexKeyPrefix (depositor : Bytes) : Option Bytes :=
  (mustLengthPrefix depositor).map fun l => depositRequestIndexKeyPrefix ++ l

/-- `GetWithdrawRequestKey` (x/dex/types/keys.go:110-112). -/
def getWithdrawRequestKey (poolId id : UInt64) : Bytes := withdrawRequestKeyPrefix ++ be64 poolId ++ be64 id

/-- `GetWithdrawRequestIndexKey` (x/dex/types/keys.go:116-119). -/
def getWithdrawRequestIndexKey (withdrawer : Bytes) (poolId reqId : UInt64) : Option Bytes :=
  (mustLengthPrefix withdrawer).map fun l => withdrawRequestIndexKeyPrefix ++ l ++ be64 poolId ++ be64 reqId

/-- `GetWithdrawRequestIndexKeyPrefix` (x/dex/types/keys.go:123-125). -/
def getWithdrawRequestIndexKeyPrefix (withdrawer : Bytes) : Option Bytes :=
  (mustLengthPrefix withdrawer).map fun l => withdrawRequestIndexKeyPrefix ++ l

/-- `GetOrderKey` (x/dex/types/keys.go:128-130). -/
def getOrderKey (pairId id : UInt64) : Bytes := orderKeyPrefix ++ be64 pairId ++ be64 id

/-- `GetOrdersByPairKeyPrefix` (x/dex/types/keys.go:133-135). -/
def getOrdersByPairKeyPrefix (pairId : UInt64) : Bytes := orderKeyPrefix ++ be64 pairId

/-- `GetOrderIndexKey` (x/dex/types/keys.go:138-141). -/
def getOrderIndexKey (orderer : Bytes) (pairId orderId : UInt64) : Option Bytes :=
  (mustLengthPrefix orderer).map fun l => orderIndexKeyPrefix ++ l ++ be64 pairId ++ be64 orderId

/-- `GetOrderIndexKeyPrefix` (x/dex/types/keys.go:145-147). -/
def getOrderIndexKeyPrefix (orderer : Bytes) : Option Bytes :=
  (mustLengthPrefix orderer).map fun l => orderIndexKeyPrefix ++ l

/-- `GetNumMMOrdersKey` (x/dex/types/keys.go:151-153). -/
def getNumMMOrdersKey (orderer : Bytes) (pairId : UInt64) : Option Bytes :=
  (mustLengthPrefix orderer).map fun l => numMMOrdersKeyPrefix ++ l ++ be64 pairId

/-- Go slice expression `b[lo:hi]`: a panic unless `lo ≤ hi ≤ len(b)` (all slices here are full, so capacity does not
matter; a larger capacity could only turn a panic into a longer slice). -/
def slice (b : Bytes) (lo hi : Nat) : Option Bytes :=
  if lo ≤ hi ∧ hi ≤ b.length then some ((b.drop lo).take (hi - lo)) else none

/-- `ParsePairsByDenomsIndexKey` (x/dex/types/keys.go:156-168).  The lengths are bytes, so all offsets wrap at 256. -/
def parsePairsByDenomsIndexKey (key : Bytes) : Option (Bytes × Bytes × UInt64) :=
  if pairsByDenomsIndexKeyPrefix.isPrefixOf key = false then none
  else do
    let la ← key[1]?
    let a ← slice key 2 (2 + la).toNat
    let lb ← key[(2 + la).toNat]?
    let b ← slice key (3 + la).toNat (3 + la + lb).toNat
    let id ← (slice key (3 + la + lb).toNat key.length).bind toUint64
    some (a, b, id)

/-- `ParsePoolsByPairIndexKey` (x/dex/types/keys.go:171-179). -/
def parsePoolsByPairIndexKey (key : Bytes) : Option UInt64 :=
  if poolsByPairIndexKeyPrefix.isPrefixOf key = false then none
  else (slice key 9 key.length).bind toUint64

/-- Body shared by `ParseDepositRequestIndexKey`, `ParseWithdrawRequestIndexKey` and `ParseOrderIndexKey`
(x/dex/types/keys.go:186-191, :199-204, :212-217). -/
def parseAddrIdId (key : Bytes) : Option (Bytes × UInt64 × UInt64) := do
  let la ← key[1]?
  let a ← slice key 2 (2 + la).toNat
  let i ← (slice key (2 + la).toNat (2 + la + 8).toNat).bind toUint64
  let j ← (slice key (2 + la + 8).toNat key.length).bind toUint64
  some (a, i, j)

/-- `ParseDepositRequestIndexKey` (x/dex/types/keys.go:182-192). -/
def parseDepositRequestIndexKey (key : Bytes) : Option (Bytes × UInt64 × UInt64) :=
  if depositRequestIndexKeyPrefix.isPrefixOf key = false then none else parseAddrIdId key

/-- `ParseWithdrawRequestIndexKey` (x/dex/types/keys.go:195-205). -/
def parseWithdrawRequestIndexKey (key : Bytes) : Option (Bytes × UInt64 × UInt64) :=
  if withdrawRequestIndexKeyPrefix.isPrefixOf key = false then none else parseAddrIdId key

/-- `ParseOrderIndexKey` (x/dex/types/keys.go:208-218). -/
def parseOrderIndexKey (key : Bytes) : Option (Bytes × UInt64 × UInt64) :=
  if orderIndexKeyPrefix.isPrefixOf key = false then none else parseAddrIdId key

/-- `ParseNumMMOrdersKey` (x/dex/types/keys.go:221-230). -/
def parseNumMMOrdersKey (key : Bytes) : Option (Bytes × UInt64) :=
  if numMMOrdersKeyPrefix.isPrefixOf key = false then none
  else do
    let la ← key[1]?
    let a ← slice key 2 (2 + la).toNat
    let i ← (slice key (2 + la).toNat key.length).bind toUint64
    some (a, i)

/-- Decimal digits of a number, most significant first: `%d` and `strconv.FormatUint` (Go standard library). -/
def digits (n : Nat) : List Char :=
  if n < 10 then [Char.ofNat (48 + n)] else digits (n / 10) ++ [Char.ofNat (48 + n % 10)]

/-- `PoolCoinDenom` (x/dex/types/pool.go:32-34). -/
def poolCoinDenom (poolId : UInt64) : List Char := ['p', 'o', 'o', 'l'] ++ digits poolId.toNat

/-- Value of a string of decimal digits. -/
def decimal : List Char → Nat := List.foldl (fun acc c => acc * 10 + (c.toNat - 48)) 0

/-- `ParsePoolCoinDenom` (x/dex/types/pool.go:37-47): the regular expression `^pool([1-9]\d*)$` (pool.go:19) followed by
`strconv.ParseUint(…, 10, 64)`, which fails on overflow. -/
def parsePoolCoinDenom (denom : List Char) : Option UInt64 :=
  match denom with
  | 'p' :: 'o' :: 'o' :: 'l' :: c :: cs =>
    if '1' ≤ c ∧ c ≤ '9' ∧ cs.all (fun d => decide ('0' ≤ d ∧ d ≤ '9')) then
      let v := decimal (c :: cs)
      if v < 2 ^ 64 then some (UInt64.ofNat v) else none
    else none
  | _ => none

end Verif.Dex.Keys

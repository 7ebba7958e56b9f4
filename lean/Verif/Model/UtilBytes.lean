import Verif.Model.Keys
import Verif.Model.Proto
/-! # Byte helpers: model of the rest of types/utils.go

`GenAndDeliverTx`, `RandomInt` and the other helpers of simulations and tests are not modelled, nor is the reading of text (`ParseDec` and so on). -/
namespace Verif.Util
open Verif Verif.Dex Verif.Dex.Keys

/-- `LengthPrefixString` (types/utils.go:247-251); the copy in x/dex/types/keys.go, which the store keys use, treats the empty string
differently.  The length is cut to a byte. -/
def lengthPrefixString (s : Bytes) : Bytes := UInt8.ofNat s.length :: s

/-- `Uint32ToBigEndian` (types/utils.go:267-271). -/
def uint32ToBigEndian (i : UInt32) : Bytes := bigEndian 4 i.toNat

/-- `BigEndianToUint32` (types/utils.go:273-278): 0 for no bytes, a panic for one to three, else the value of the first four. -/
def bigEndianToUint32 (b : Bytes) : Option UInt32 :=
  if b.length = 0 then some 0
  else if b.length < 4 then none
  else some (UInt32.ofNat (fromBigEndian (b.take 4)))

/-- The unsigned number `binary.PutVarint` writes for a signed one (Go encoding/binary, used in types/utils.go:215): twice the number, with
all bits inverted if it is negative. -/
def zigzag (x : Int) : Nat := if x < 0 then 2 * (-x - 1).toNat + 1 else 2 * x.toNat

/-- `TestAddress` (types/utils.go:213-217): twenty bytes that begin with the varint of the number. -/
def testAddress (addrNum : Int) : Bytes :=
  let v := Pb.varint (zigzag addrNum)
  v ++ List.replicate (20 - v.length) 0

end Verif.Util

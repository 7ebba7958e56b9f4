/-!
# Wire encoding of records and messages: the generated code in x/dex/types/*.pb.go

The generated `MarshalToSizedBuffer`, `Size` and `Unmarshal` functions treat each field of a message by one of a few patterns.
A pattern is modelled once, as a `Field`; a message is the list of its fields (`Verif/Model/Records.lean`).

Simplified: `MarshalToSizedBuffer` fills its buffer from the end and returns the number of bytes written; here the written bytes
are returned, in ascending field order.  `none` is an error, on which `codec.MustMarshal`/`MustUnmarshal` panic.
-/
namespace Verif.Pb

/-- A Go byte slice. -/
abbrev Bytes := List UInt8

/-! ## Varints -/

/-- `encodeVarintDex` and its copies (x/dex/types/dex.pb.go:1358-1368): seven bits per byte, low bits first, the top bit set on all bytes but
the last.  A `uint64` takes at most ten bytes: that is the fuel. -/
def varintLoop : Nat → Nat → Bytes
  | 0, _ => []
  | n + 1, v => if 128 ≤ v then UInt8.ofNat (v % 128 + 128) :: varintLoop n (v / 128) else [UInt8.ofNat v]

@[inherit_doc varintLoop]
def varint (v : Nat) : Bytes := varintLoop 10 v

/-- `sovDex` (x/dex/types/dex.pb.go:1570-1572): the length of a varint, from `bits.Len64`. -/
def sov (v : Nat) : Nat := (Nat.log2 (v ||| 1) + 1 + 6) / 7

/-- The loop that reads a varint (x/dex/types/dex.pb.go:1582-1595, repeated for every field): the bits of the next byte are added at
`shift`; bits beyond the 64th are lost; a shift of 64 or more is an error, so the fuel is ten.  (`|=` of disjoint bits is a sum.) -/
def readVarintLoop : Nat → Nat → Nat → Bytes → Option (Nat × Bytes)
  | 0, _, _, _ => none
  | _ + 1, _, _, [] => none
  | n + 1, shift, acc, b :: bs =>
    let acc := (acc + b.toNat % 128 * 2 ^ shift) % 2 ^ 64
    if b.toNat < 128 then some (acc, bs) else readVarintLoop n (shift + 7) acc bs

@[inherit_doc readVarintLoop]
def readVarint (bs : Bytes) : Option (Nat × Bytes) := readVarintLoop 10 0 0 bs

/-- A length and that many bytes (x/dex/types/dex.pb.go:1631-1656): a length that is negative as an `int` or exceeds what is left is an
error. -/
def readBytes (bs : Bytes) : Option (Bytes × Bytes) :=
  match readVarint bs with
  | none => none
  | some (n, r) => if 2 ^ 63 ≤ n ∨ r.length < n then none else some (r.take n, r.drop n)

/-- A byte string with its length before it. -/
def withLength (p : Bytes) : Bytes := varint p.length ++ p

/-- The varint case of `skipDex` (x/dex/types/dex.pb.go:3103-3115). -/
def skipVarint : Nat → Bytes → Option Bytes
  | 0, _ => none
  | _ + 1, [] => none
  | n + 1, b :: bs => if b.toNat < 128 then some bs else skipVarint n bs

/-- What the iteration of `skipDex` for one tag skips after the tag (x/dex/types/dex.pb.go:3101-3149), with the new depth. -/
def skipValue (wireType depth : Nat) (bs : Bytes) : Option (Nat × Bytes) :=
  match wireType with
  | 0 => (skipVarint 10 bs).map fun r => (depth, r)
  | 1 => if bs.length < 8 then none else some (depth, bs.drop 8)
  | 2 => (readBytes bs).map fun r => (depth, r.2)
  | 3 => some (depth + 1, bs)
  | 4 => if depth = 0 then none else some (depth - 1, bs)
  | 5 => if bs.length < 4 then none else some (depth, bs.drop 4)
  | _ => none

/-- `skipDex` (x/dex/types/dex.pb.go:3081-3158): skips one unknown field with its tag; groups may nest.  Returns the bytes after it; an
index beyond the end is an error of the caller (x/dex/types/dex.pb.go:1802-1804). -/
def skip : Nat → Nat → Bytes → Option Bytes
  | 0, _, _ => none
  | n + 1, depth, bs =>
    match readVarint bs with
    | none => none
    | some (wire, r) =>
      match skipValue (wire % 8) depth r with
      | none => none
      | some (depth, r) => if depth = 0 then some r else skip n depth r

/-! ## Fields and messages -/

/-- How the generated code treats one field of a message `M`. -/
structure Field (M : Type) where
  /-- The `case` in `Unmarshal`. -/
  num : Nat
  /-- What `MarshalToSizedBuffer` writes for the field. -/
  put : M → Option Bytes
  /-- What `Size` adds for the field. -/
  size : M → Nat
  /-- What `Unmarshal` does with the bytes after the tag, given the wire type. -/
  read : Nat → Bytes → M → Option (M × Bytes)

variable {M V : Type}

/-- `MarshalToSizedBuffer` of a message (x/dex/types/dex.pb.go:904-958 and so on). -/
def putAll : List (Field M) → M → Option Bytes
  | [], _ => some []
  | f :: fs, m =>
    match f.put m, putAll fs m with
    | some a, some b => some (a ++ b)
    | _, _ => none

/-- `Size` of a message (x/dex/types/dex.pb.go:1369-1401 and so on). -/
def sizeAll : List (Field M) → M → Nat
  | [], _ => 0
  | f :: fs, m => f.size m + sizeAll fs m

/-- `Marshal` of a message (x/dex/types/dex.pb.go:889-897): a buffer of `Size()` bytes is filled from its end, a negative index panics, and
the first `n` bytes of the buffer are returned, `n` being the number of bytes written. -/
def marshal (fs : List (Field M)) (m : M) : Option Bytes :=
  match putAll fs m with
  | none => none
  | some p =>
    if sizeAll fs m < p.length then none
    else some ((List.replicate (sizeAll fs m - p.length) 0 ++ p).take p.length)

/-- One iteration of the loop of `Unmarshal` (x/dex/types/dex.pb.go:1579-1806): the tag, then the field, or the field is skipped if its
number is unknown.  The field number is an `int32` and must be positive; wire type 4 is an error. -/
def parseField (fs : List (Field M)) (bs : Bytes) (m : M) : Option (M × Bytes) :=
  match readVarint bs with
  | none => none
  | some (wire, r) =>
    if wire % 8 = 4 then none
    else if wire / 8 % 2 ^ 32 = 0 ∨ 2 ^ 31 ≤ wire / 8 % 2 ^ 32 then none
    else
      match fs.find? (fun f => f.num == wire / 8 % 2 ^ 32) with
      | some f => f.read (wire % 8) r m
      | none => (skip bs.length 0 bs).map fun r => (m, r)

/-- `Unmarshal` of a message into `m` (x/dex/types/dex.pb.go:1576-1814): the loop runs until the bytes are used up.  Every iteration uses
at least one byte, so the number of bytes is enough fuel. -/
def parseLoop (fs : List (Field M)) : Nat → Bytes → M → Option M
  | _, [], m => some m
  | 0, _ :: _, _ => none
  | n + 1, b :: bs, m =>
    match parseField fs (b :: bs) m with
    | none => none
    | some (m, r) => parseLoop fs n r m

@[inherit_doc parseLoop]
def unmarshal (fs : List (Field M)) (bs : Bytes) (m : M) : Option M := parseLoop fs bs.length bs m

/-! ## The patterns -/

/-- An integer, enum or boolean field (x/dex/types/dex.pb.go:909-913, :1372-1374, :1606-1624): written as a varint unless it is zero.
`enc` is the conversion to `uint64`, `dec` what is left of 64 bits in the type of the field. -/
def numField [DecidableEq V] (num : Nat) (tag : Bytes) (zero : V) (enc : V → Nat) (dec : Nat → V) (get : M → V) (set : M → V → M) : Field M where
  num
  put m := some (if get m = zero then [] else tag ++ varint (enc (get m)))
  size m := if get m = zero then 0 else tag.length + sov (enc (get m))
  read wt bs m := if wt ≠ 0 then none else (readVarint bs).map fun r => (set m (dec r.1), r.2)

/-- A `uint64` field (x/dex/types/dex.pb.go:909-913). -/
def uint64Field (num : Nat) (tag : Bytes) (get : M → Nat) (set : M → Nat → M) : Field M := numField num tag 0 id id get set

/-- A `uint32` field (x/dex/types/params.pb.go:386-390). -/
def uint32Field (num : Nat) (tag : Bytes) (get : M → Nat) (set : M → Nat → M) : Field M := numField num tag 0 id (· % 2 ^ 32) get set

/-- The `int64` with the given 64 bits. -/
def toInt64 (v : Nat) : Int := if v % 2 ^ 64 < 2 ^ 63 then (v % 2 ^ 64 : Nat) else (v % 2 ^ 64 : Nat) - 2 ^ 64
/-- The `int32` with the lowest 32 of the given bits. -/
def toInt32 (v : Nat) : Int := if v % 2 ^ 32 < 2 ^ 31 then (v % 2 ^ 32 : Nat) else (v % 2 ^ 32 : Nat) - 2 ^ 32
/-- `uint64(x)` of a signed integer: sign extension. -/
def toUint64 (x : Int) : Nat := (x % 2 ^ 64).toNat

/-- An `int64` field (x/dex/types/dex.pb.go:1335-1339). -/
def int64Field (num : Nat) (tag : Bytes) (get : M → Int) (set : M → Int → M) : Field M := numField num tag 0 toUint64 toInt64 get set

/-- An enum field, an `int32` (x/dex/types/dex.pb.go:1245-1249); also the `Nanos` of the well-known types. -/
def enumField (num : Nat) (tag : Bytes) (get : M → Int) (set : M → Int → M) : Field M := numField num tag 0 toUint64 toInt32 get set

/-- A `bool` field (x/dex/types/dex.pb.go:980-989, :1444-1446, :2107-2126). -/
def boolField (num : Nat) (tag : Bytes) (get : M → Bool) (set : M → Bool → M) : Field M :=
  numField num tag false Bool.toNat (fun v => decide (v ≠ 0)) get set

/-- A `string` field (x/dex/types/dex.pb.go:931-937, :1386-1389, :1626-1657). -/
def stringField (num : Nat) (tag : Bytes) (get : M → Bytes) (set : M → Bytes → M) : Field M where
  num
  put m := some (if get m = [] then [] else tag ++ withLength (get m))
  size m := if get m = [] then 0 else tag.length + (get m).length + sov (get m).length
  read wt bs m := if wt ≠ 2 then none else (readBytes bs).map fun r => (set m r.1, r.2)

/-- How values of a type are written and read between length and end: `size` is its `Size()`, `merge` its `Unmarshal`. -/
structure Codec (V : Type) where
  zero : V
  put : V → Option Bytes
  size : V → Nat
  merge : Bytes → V → Option V

/-- A message as the value of a field of another one. -/
def Codec.message (fs : List (Field V)) (zero : V) : Codec V where
  zero
  put := putAll fs
  size := sizeAll fs
  merge := unmarshal fs

/-- A field that is always written: an embedded message or a custom type that is not nullable (x/dex/types/dex.pb.go:1263-1272,
:1313-1322, :1547-1558). -/
def valueField (num : Nat) (tag : Bytes) (c : Codec V) (get : M → V) (set : M → V → M) : Field M where
  num
  put m := (c.put (get m)).map fun p => tag ++ withLength p
  size m := tag.length + c.size (get m) + sov (c.size (get m))
  read wt bs m :=
    if wt ≠ 2 then none
    else match readBytes bs with
      | none => none
      | some (p, r) => (c.merge p (get m)).map fun v => (set m v, r)

/-- A pointer to a custom type (x/dex/types/dex.pb.go:914-925, :1393-1396, :1739-1774): written unless it is nil, read into a new value. -/
def pointerField (num : Nat) (tag : Bytes) (c : Codec V) (get : M → Option V) (set : M → Option V → M) : Field M where
  num
  put m := match get m with
    | none => some []
    | some v => (c.put v).map fun p => tag ++ withLength p
  size m := match get m with
    | none => 0
    | some v => tag.length + c.size v + sov (c.size v)
  read wt bs m :=
    if wt ≠ 2 then none
    else match readBytes bs with
      | none => none
      | some (p, r) => (c.merge p c.zero).map fun v => (set m (some v), r)

/-- The elements of a repeated field, each with its tag (x/dex/types/dex.pb.go:1098-1111). -/
def putElems (tag : Bytes) (c : Codec V) : List V → Option Bytes
  | [] => some []
  | v :: vs =>
    match c.put v, putElems tag c vs with
    | some p, some q => some (tag ++ withLength p ++ q)
    | _, _ => none

/-- The size of the elements of a repeated field (x/dex/types/dex.pb.go:1465-1470). -/
def sizeElems (tag : Bytes) (c : Codec V) : List V → Nat
  | [] => 0
  | v :: vs => tag.length + c.size v + sov (c.size v) + sizeElems tag c vs

/-- A repeated message field (x/dex/types/dex.pb.go:1098-1111, :1465-1470, :2261-2294): every occurrence appends an element. -/
def repeatedField (num : Nat) (tag : Bytes) (c : Codec V) (get : M → List V) (set : M → List V → M) : Field M where
  num
  put m := putElems tag c (get m)
  size m := sizeElems tag c (get m)
  read wt bs m :=
    if wt ≠ 2 then none
    else match readBytes bs with
      | none => none
      | some (p, r) => (c.merge p c.zero).map fun v => (set m (get m ++ [v]), r)

/-- The loop that reads packed integers until `stop` bytes are left (x/dex/types/tx.pb.go:5361-5378); it may read beyond. -/
def readPacked : Nat → Nat → Bytes → List Nat → Option (List Nat × Bytes)
  | 0, stop, bs, acc => if bs.length ≤ stop then some (acc, bs) else none
  | n + 1, stop, bs, acc =>
    if bs.length ≤ stop then some (acc, bs)
    else match readVarint bs with
      | none => none
      | some (v, r) => readPacked n stop r (acc ++ [v])

/-- A packed repeated `uint64` field (x/dex/types/tx.pb.go:2578-2595, :3025-3031, :5305-5381).  It is read from one integer too. -/
def packedField (num : Nat) (tag : Bytes) (get : M → List Nat) (set : M → List Nat → M) : Field M where
  num
  put m := some (if get m = [] then [] else tag ++ withLength ((get m).flatMap varint))
  size m := if get m = [] then 0 else
    tag.length + sov ((get m).map sov).sum + ((get m).map sov).sum
  read wt bs m :=
    if wt = 0 then (readVarint bs).map fun r => (set m (get m ++ [r.1]), r.2)
    else if wt = 2 then
      match readVarint bs with
      | none => none
      | some (n, r) =>
        if 2 ^ 63 ≤ n ∨ r.length < n then none
        else (readPacked r.length (r.length - n) r (get m)).map fun x => (set m x.1, x.2)
    else none

/-! ## Custom types -/

/-- The decimal digits of a number, lowest first. -/
def digitsLoop : Nat → Nat → List Nat
  | 0, _ => []
  | f + 1, n => if n < 10 then [n] else n % 10 :: digitsLoop f (n / 10)

@[inherit_doc digitsLoop]
def digits (n : Nat) : List Nat := digitsLoop (Nat.log2 n + 1) n

/-- `big.Int.MarshalText` (Go `math/big`, called by `math.Int.Marshal` and `LegacyDec.Marshal`): decimal digits, a minus sign before them if
negative. -/
def text (x : Int) : Bytes :=
  (if x < 0 then [45] else []) ++ (digits x.natAbs).reverse.map (fun d => UInt8.ofNat (48 + d))

/-- The number written with the given decimal digits, highest first; `none` if there is another character. -/
def numberLoop : Bytes → Nat → Option Nat
  | [], acc => some acc
  | b :: bs, acc => if 48 ≤ b.toNat ∧ b.toNat ≤ 57 then numberLoop bs (10 * acc + (b.toNat - 48)) else none

/-- The number written with decimal digits.  A leading zero starts a number in another base (`0x`, `0b`, `0`): such texts are never
written; here they are rejected. -/
def number : Bytes → Option Nat
  | [] => none
  | b :: bs => if b = 48 ∧ bs ≠ [] then none else numberLoop (b :: bs) 0

/-- `big.Int.UnmarshalText` (Go `math/big`), restricted to decimal numbers. -/
def parseText : Bytes → Option Int
  | [] => none
  | b :: bs =>
    if b = 45 then (number bs).map fun n : Nat => -(n : Int)
    else if b = 43 then (number bs).map fun n : Nat => (n : Int)
    else (number (b :: bs)).map fun n : Nat => (n : Int)

/-- `Marshal`, `Size` and `Unmarshal` of `math.Int` (256 bits) and `math.LegacyDec` (315 bits): text; empty bytes leave the value as it is;
a number with more bits is an error (cosmossdk.io/math; fields at x/dex/types/dex.pb.go:645-647). -/
def numberCodec (bits : Nat) : Codec Int where
  zero := 0
  put x := some (text x)
  size x := (text x).length
  merge p v :=
    if p = [] then some v
    else match parseText p with
      | none => none
      | some x => if x.natAbs < 2 ^ bits then some x else none

@[inherit_doc numberCodec] def intCodec : Codec Int := numberCodec 256
@[inherit_doc numberCodec] def decCodec : Codec Int := numberCodec 315

/-- `Timestamp` and `Duration` (gogoproto/types): seconds and nanoseconds. -/
structure Stamp where
  seconds : Int := 0
  nanos : Int := 0
  deriving DecidableEq, Repr

/-- Their fields. -/
def stampFields : List (Field Stamp) :=
  [int64Field 1 [0x08] (·.seconds) (fun m v => { m with seconds := v }), enumField 2 [0x10] (·.nanos) (fun m v => { m with nanos := v })]

/-- `validateTimestamp` (gogoproto/types/timestamp.go): the years 1 to 9999. -/
def Stamp.validTime (t : Stamp) : Bool :=
  decide (-62135596800 ≤ t.seconds ∧ t.seconds < 253402300800 ∧ 0 ≤ t.nanos ∧ t.nanos < 1000000000)

/-- `StdTimeMarshalTo`, `SizeOfStdTime`, `StdTimeUnmarshal` (gogoproto/types/timestamp_gogo.go; used at x/dex/types/dex.pb.go:1250): a UTC time
is given by its seconds and nanoseconds since 1970; the size of an invalid time is zero. -/
def timeCodec : Codec Stamp where
  zero := { seconds := -62135596800 }
  put t := if t.validTime then putAll stampFields t else none
  size t := if t.validTime then sizeAll stampFields t else 0
  merge p _ := match unmarshal stampFields p {} with
    | none => none
    | some t => if t.validTime then some t else none

/-- `durationProto` (gogoproto/types/duration.go): the seconds and the rest of a duration in nanoseconds, both truncated towards zero. -/
def durationStamp (d : Int) : Stamp := { seconds := d.tdiv 1000000000, nanos := d - d.tdiv 1000000000 * 1000000000 }

/-- `durationFromProto` with `validateDuration` (gogoproto/types/duration.go): at most 10000 years, the nanoseconds less than a second and
of the same sign, the result in 64 bits. -/
def durationOf (t : Stamp) : Option Int :=
  if t.seconds < -315576000000 ∨ 315576000000 < t.seconds then none
  else if t.nanos ≤ -1000000000 ∨ 1000000000 ≤ t.nanos then none
  else if (t.seconds < 0 ∧ 0 < t.nanos) ∨ (0 < t.seconds ∧ t.nanos < 0) then none
  else
    let d := t.seconds * 1000000000 + t.nanos
    if d < -2 ^ 63 ∨ 2 ^ 63 ≤ d then none else some d

/-- `StdDurationMarshalTo`, `SizeOfStdDuration`, `StdDurationUnmarshal` (gogoproto/types/duration_gogo.go; used at
x/dex/types/params.pb.go:290). -/
def durationCodec : Codec Int where
  zero := 0
  put d := putAll stampFields (durationStamp d)
  size d := sizeAll stampFields (durationStamp d)
  merge p _ := match unmarshal stampFields p {} with
    | none => none
    | some t => durationOf t

end Verif.Pb

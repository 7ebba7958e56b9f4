import Mathlib.Data.List.Basic
/-!
# Store: ordered key-value collections

The keeper keeps each kind of object under a prefix and iterates in key order (x/dex/keeper/store.go).  Keys are big-endian
ids, so key order is the lexicographic order of the ids (C32).  The model keeps the objects of one kind in a list sorted by
key.  The secondary indexes (pair by denoms, pools by pair, objects by owner; store.go:51-92, :186-245, :289-331, :475-536)
are lookups in these lists.
-/
namespace Verif.Dex

/-- Keys: one or two 64-bit ids. -/
abbrev Key := Nat × Nat

/-- Order of the encoded keys (x/dex/types/keys.go:47, :72, :92, :110, :128). -/
def keyLt (a b : Key) : Bool := a.1 < b.1 || (a.1 == b.1 && a.2 < b.2)

/-- `store.Set(key, value)` (x/dex/keeper/store.go:64, :179, :283, :376, :469). -/
def upsert {α : Type} (key : α → Key) (v : α) : List α → List α
  | [] => [v]
  | x :: xs =>
    if key x = key v then v :: xs
    else if keyLt (key v) (key x) then v :: x :: xs
    else x :: upsert key v xs

/-- `store.Get(key)` (x/dex/keeper/store.go:40, :155, :272, :365, :458). -/
def lookup {α : Type} (key : α → Key) (k : Key) (l : List α) : Option α := l.find? (fun x => key x == k)

/-- `store.Delete(key)` (x/dex/keeper/store.go:353, :446, :567). -/
def remove {α : Type} (key : α → Key) (k : Key) (l : List α) : List α := l.filter (fun x => key x != k)

end Verif.Dex

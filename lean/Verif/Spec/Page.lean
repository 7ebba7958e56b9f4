import Verif.Model.Query
/-!
# Reading a paginated list

A client asks for a first page and then, as long as the response has a next key, for the page from that key on.
-/
namespace Verif.Spec
open Verif Verif.Dex Verif.Dex.Keys Verif.Dex.Query

/-- Starting with the request `r` and following the next keys, the client receives the records `l`.  The follow-up requests
go in the same direction but may use any limit. -/
inductive Walk {α : Type} (query : PageReq → Option (PageRes α)) : PageReq → List α → Prop
  | last {r : PageReq} {p : PageRes α} (h : query r = some p) (hk : p.nextKey = none) : Walk query r p.items
  | next {r r' : PageReq} {p : PageRes α} {k : Bytes} {l : List α} (h : query r = some p) (hk : p.nextKey = some k)
      (hr : r'.key = k ∧ r'.offset = 0 ∧ r'.reverse = r.reverse) (h' : Walk query r' l) : Walk query r (p.items ++ l)

/-- The page size that applies: 100 if none is given. -/
def effectiveLimit (r : PageReq) : Nat := if r.limit = 0 then 100 else r.limit.toNat

/-- A first request: no key, and the offset and the page size stay away from the end of the 64-bit range. -/
structure FirstPage (r : PageReq) : Prop where
  noKey : r.key = []
  inRange : r.offset.toNat + effectiveLimit r + 1 < 2 ^ 64

/-- The query pages through the list `L`: one page is the window of `L` (of `L` backwards, if asked so) given by offset and
limit, it comes with a next key exactly if more follows, and the number of records if asked for (or if no limit is given);
reading on from page to page always ends and yields everything from the offset on, each record once and in order.  A request with
both a key and an offset is refused. -/
structure PagesThrough {α : Type} (query : PageReq → Option (PageRes α)) (L : List α) : Prop where
  window : ∀ r, FirstPage r → ∃ p, query r = some p ∧
    p.items = (((if r.reverse then L.reverse else L).drop r.offset.toNat).take (effectiveLimit r)) ∧
    (p.nextKey = none ↔ L.length ≤ r.offset.toNat + effectiveLimit r) ∧
    (r.countTotal = true ∨ r.limit = 0 → p.total.toNat = L.length)
  ends : ∀ r, FirstPage r → ∃ l, Walk query r l
  all : ∀ r l, FirstPage r → Walk query r l → l = (if r.reverse then L.reverse else L).drop r.offset.toNat
  both : ∀ r, r.key ≠ [] → r.offset ≠ 0 → query r = none

/-- The answer `r` for the pool `p`: its record, what its reserve account holds of the two coins of its pair, the supply of
its pool coin and, unless it is disabled, the price of the pool with these reserves. -/
structure ReportsPool (env : Env) (s : State) (p : PoolRec) (r : PoolRes) : Prop where
  record : r.pool = p
  balances : ∃ pair ∈ s.pairs, pair.id = p.pairId ∧ r.quote = s.bank.bal (.poolReserve p.id) pair.quote ∧
    r.base = s.bank.bal (.poolReserve p.id) pair.base
  supply : r.supply = s.bank.supply (.pool p.id)
  price : if p.disabled then r.price = none else ∃ a x, ammPool env p r.quote r.base 0 = some a ∧ a.price = some x ∧ r.price = some x

end Verif.Spec

import Verif.Model.Batch
import Verif.Model.Keys
/-!
# Command line: model of x/dex/client/cli (tx.go, query.go, util.go, flags.go)

A command gets the argument list and its flags and builds the message or the request it sends.  Modelled: the argument checks of
cobra, the reading of the arguments in the order of the code, and the message or request built from them.  Not modelled: printing
of the answer, the client context, the page request, the texts of errors.  The readers of the SDK for coins, decimals, integers and
denoms are parameters (`Readers`); `strconv.ParseUint`, `strconv.ParseBool`, `strings.Split` and `strings.ToLower` are modelled.

Note: `GetTxCmd` (tx.go:21-43) and `GetQueryCmd` (query.go:18-43) are exported, but nothing in /repo adds them to the root command.
-/
namespace Verif.Cli
open Verif Verif.Dex Verif.Amm

/-- A Go string. -/
abbrev Text := List Char

/-- What running a command leads to: it sends `a`, returns an error, or panics. -/
inductive Outcome (α : Type) where
  | sends (a : α)
  | error
  | panics
  deriving DecidableEq, Repr

/-- Go's `x, err := …; if err != nil { return … }`. -/
def need {α β : Type} (x : Option α) (k : α → Outcome β) : Outcome β :=
  match x with
  | some a => k a
  | none => .error

/-- The element `args[i]`: an index out of range panics. -/
def arg {β : Type} (args : List Text) (i : Nat) (k : Text → Outcome β) : Outcome β :=
  match args[i]? with
  | some a => k a
  | none => .panics

/-- `cobra.ExactArgs(n)`: checked before `RunE`. -/
def exactArgs {β : Type} (n : Nat) (args : List Text) (k : Outcome β) : Outcome β := if args.length = n then k else .error

/-- `cobra.MaximumNArgs(n)`. -/
def maximumArgs {β : Type} (n : Nat) (args : List Text) (k : Outcome β) : Outcome β := if args.length ≤ n then k else .error

/-- Readers of the SDK: `sdk.ParseCoinNormalized`, `sdk.ParseCoinsNormalized`, `math.LegacyNewDecFromStr`, `math.NewIntFromString`,
`sdk.ValidateDenom`.  `denom` gives the model's denom for a text. -/
structure Readers where
  coin : Text → Option Coin
  coins : Text → Option Coins
  dec : Text → Option Int
  int : Text → Option Int
  denomValid : Text → Bool
  denom : Text → Denom

/-- `strconv.ParseUint(s, 10, 64)` (Go standard library): a non-empty string of digits whose value fits in 64 bits. -/
def parseUint (s : Text) : Option Nat :=
  if s = [] then none
  else if s.all (fun c => decide ('0' ≤ c ∧ c ≤ '9')) = false then none
  else if 2 ^ 64 ≤ Keys.decimal s then none
  else some (Keys.decimal s)

/-- `strconv.ParseBool` (Go standard library). -/
def parseBool (s : Text) : Option Bool :=
  if s ∈ ["1".toList, "t".toList, "T".toList, "TRUE".toList, "true".toList, "True".toList] then some true
  else if s ∈ ["0".toList, "f".toList, "F".toList, "FALSE".toList, "false".toList, "False".toList] then some false
  else none

/-- `strings.Split(s, sep)` (Go standard library) for a separator of one character. -/
def split (sep : Char) : Text → List Text
  | [] => [[]]
  | c :: cs =>
    if c = sep then [] :: split sep cs
    else
      match split sep cs with
      | [] => [[c]]
      | p :: ps => (c :: p) :: ps

/-- `strings.ToLower` on one character.  Only the letters A to Z: no other character has its lower case among b, e, l, s, u, y, the
letters that matter to `parseOrderDirection`. -/
def lower (c : Char) : Char := if 'A' ≤ c ∧ c ≤ 'Z' then Char.ofNat (c.toNat + 32) else c

/-- `excConditions` (x/dex/client/cli/util.go:11-19). -/
def excConditions (conditions : List Bool) : Bool :=
  conditions.foldl (fun cnt c => if c then cnt + 1 else cnt) 0 == 1

/-- `parseOrderDirection` (x/dex/client/cli/util.go:23-31). -/
def parseOrderDirection (s : Text) : Option Dir :=
  let t := s.map lower
  if t = "buy".toList ∨ t = "b".toList then some .buy
  else if t = "sell".toList ∨ t = "s".toList then some .sell
  else none

/-- The loop that reads pair ids (x/dex/client/cli/tx.go:591-598, query.go:684-692). -/
def parsePairIds : List Text → Option (List Nat)
  | [] => some []
  | t :: ts =>
    match parseUint t, parsePairIds ts with
    | some p, some ps => some (p :: ps)
    | _, _ => none

/-! ## Transactions: `sender` is the address of `--from`, `lifespan` the value of `--order-lifespan` (default 0) -/

/-- `NewCreatePairCmd` (x/dex/client/cli/tx.go:46-77). -/
def createPair (R : Readers) (sender : Nat) (args : List Text) : Outcome Op :=
  exactArgs 2 args <|
    arg args 0 fun base => arg args 1 fun quote =>
      .sends (.createPair { creator := sender, base := R.denom base, quote := R.denom quote })

/-- `NewCreatePoolCmd` (x/dex/client/cli/tx.go:80-118). -/
def createPool (R : Readers) (sender : Nat) (args : List Text) : Outcome Op :=
  exactArgs 2 args <|
    arg args 0 fun a0 => need (parseUint a0) fun pairId =>
    arg args 1 fun a1 => need (R.coins a1) fun coins =>
      .sends (.createPool { creator := sender, pairId := pairId, coins := coins })

/-- `NewCreateRangedPoolCmd` (x/dex/client/cli/tx.go:121-180). -/
def createRangedPool (R : Readers) (sender : Nat) (args : List Text) : Outcome Op :=
  exactArgs 5 args <|
    arg args 0 fun a0 => need (parseUint a0) fun pairId =>
    arg args 1 fun a1 => need (R.coins a1) fun coins =>
    arg args 2 fun a2 => need (R.dec a2) fun minPrice =>
    arg args 3 fun a3 => need (R.dec a3) fun maxPrice =>
    arg args 4 fun a4 => need (R.dec a4) fun initialPrice =>
      .sends (.createRangedPool { creator := sender, pairId := pairId, coins := coins, minPrice := minPrice, maxPrice := maxPrice,
                                  initialPrice := initialPrice })

/-- `NewDepositCmd` (x/dex/client/cli/tx.go:183-221). -/
def deposit (R : Readers) (sender : Nat) (args : List Text) : Outcome Op :=
  exactArgs 2 args <|
    arg args 0 fun a0 => need (parseUint a0) fun poolId =>
    arg args 1 fun a1 => need (R.coins a1) fun coins =>
      .sends (.deposit { depositor := sender, poolId := poolId, coins := coins })

/-- `NewWithdrawCmd` (x/dex/client/cli/tx.go:224-266). -/
def withdraw (R : Readers) (sender : Nat) (args : List Text) : Outcome Op :=
  exactArgs 2 args <|
    arg args 0 fun a0 => need (parseUint a0) fun poolId =>
    arg args 1 fun a1 => need (R.coin a1) fun coin =>
      .sends (.withdraw { withdrawer := sender, poolId := poolId, coin := coin })

/-- The arguments `NewLimitOrderCmd` and `NewMMOrderCmd` read, in the same way (x/dex/client/cli/tx.go:305-334, :474-503). -/
def orderArgs (R : Readers) (sender : Nat) (lifespan : Int) (args : List Text) (k : MsgLimitOrder → Outcome Op) : Outcome Op :=
  exactArgs 6 args <|
    arg args 0 fun a0 => need (parseUint a0) fun pairId =>
    arg args 1 fun a1 => need (parseOrderDirection a1) fun dir =>
    arg args 2 fun a2 => need (R.coin a2) fun offer =>
    arg args 3 fun a3 => if R.denomValid a3 = false then .error else
    arg args 4 fun a4 => need (R.dec a4) fun price =>
    arg args 5 fun a5 => need (R.int a5) fun amt =>
      k { orderer := sender, pairId := pairId, dir := dir, offer := offer, demand := R.denom a3, price := price, amt := amt,
          lifespan := lifespan }

/-- `NewLimitOrderCmd` (x/dex/client/cli/tx.go:269-352). -/
def limitOrder (R : Readers) (sender : Nat) (lifespan : Int) (args : List Text) : Outcome Op :=
  orderArgs R sender lifespan args fun m => .sends (.limitOrder m)

/-- `NewMMOrderCmd` (x/dex/client/cli/tx.go:434-521). -/
def mmOrder (R : Readers) (sender : Nat) (lifespan : Int) (args : List Text) : Outcome Op :=
  orderArgs R sender lifespan args fun m => .sends (.mmOrder m)

/-- `NewMarketOrderCmd` (x/dex/client/cli/tx.go:355-431). -/
def marketOrder (R : Readers) (sender : Nat) (lifespan : Int) (args : List Text) : Outcome Op :=
  exactArgs 5 args <|
    arg args 0 fun a0 => need (parseUint a0) fun pairId =>
    arg args 1 fun a1 => need (parseOrderDirection a1) fun dir =>
    arg args 2 fun a2 => need (R.coin a2) fun offer =>
    arg args 3 fun a3 => if R.denomValid a3 = false then .error else
    arg args 4 fun a4 => need (R.int a4) fun amt =>
      .sends (.marketOrder { orderer := sender, pairId := pairId, dir := dir, offer := offer, demand := R.denom a3, amt := amt,
                             lifespan := lifespan })

/-- `NewCancelOrderCmd` (x/dex/client/cli/tx.go:524-566). -/
def cancelOrder (sender : Nat) (args : List Text) : Outcome Op :=
  exactArgs 2 args <|
    arg args 0 fun a0 => need (parseUint a0) fun pairId =>
    arg args 1 fun a1 => need (parseUint a1) fun orderId =>
      .sends (.cancelOrder { orderer := sender, pairId := pairId, orderId := orderId })

/-- `NewCancelAllOrdersCmd` (x/dex/client/cli/tx.go:569-609): the argument may be left out, but `args[0]` is read all the same. -/
def cancelAllOrders (sender : Nat) (args : List Text) : Outcome Op :=
  maximumArgs 1 args <|
    arg args 0 fun a0 => need (parsePairIds (split ',' a0)) fun pairIds =>
      .sends (.cancelAllOrders { orderer := sender, pairIds := pairIds })

/-! ## Queries -/

/-- Requests to the query service, without the page request. -/
inductive Request where
  | params
  | pairs (denoms : List Text)
  | pair (pairId : Nat)
  | pools (pairId : Nat) (disabled : Text)
  | pool (poolId : Nat)
  | poolByPoolCoinDenom (denom : Text)
  | poolByReserveAddress (addr : Text)
  | depositRequests (poolId : Nat)
  | depositRequest (poolId id : Nat)
  | withdrawRequests (poolId : Nat)
  | withdrawRequest (poolId id : Nat)
  | orders (pairId : Nat)
  | ordersByOrderer (orderer : Text) (pairId : Nat)
  | order (pairId id : Nat)
  | orderBooks (pairIds : List Nat) (numTicks : Nat)
  deriving DecidableEq, Repr

/-- `NewQueryParamsCmd` (x/dex/client/cli/query.go:46-80). -/
def queryParams (args : List Text) : Outcome Request := exactArgs 0 args <| .sends .params

/-- `NewQueryPairsCmd` (x/dex/client/cli/query.go:83-132), with the flag `--denoms`. -/
def queryPairs (denoms : List Text) (args : List Text) : Outcome Request := exactArgs 0 args <| .sends (.pairs denoms)

/-- `NewQueryPairCmd` (x/dex/client/cli/query.go:135-176). -/
def queryPair (args : List Text) : Outcome Request :=
  exactArgs 1 args <| arg args 0 fun a0 => need (parseUint a0) fun id => .sends (.pair id)

/-- The value of the flag `--pair-id`, 0 if it is empty (x/dex/client/cli/query.go:206-215, :564-571). -/
def pairIdFlag (flag : Text) : Option Nat := if flag ≠ [] then parseUint flag else some 0

/-- `NewQueryPoolsCmd` (x/dex/client/cli/query.go:179-244), with the flags `--pair-id` and `--disabled`. -/
def queryPools (pairIdStr disabledStr : Text) (args : List Text) : Outcome Request :=
  exactArgs 0 args <|
    need (pairIdFlag pairIdStr) fun pairId =>
      if disabledStr ≠ [] ∧ parseBool disabledStr = none then .error
      else .sends (.pools pairId disabledStr)

/-- The part of `NewQueryPoolCmd` after the optional argument is read (x/dex/client/cli/query.go:277-303). -/
def poolRequest (poolId : Option Nat) (denom addr : Text) : Outcome Request :=
  if excConditions [poolId.isSome, decide (denom ≠ []), decide (addr ≠ [])] = false then .error
  else
    match poolId with
    | some id => .sends (.pool id)
    | none =>
      if denom ≠ [] then .sends (.poolByPoolCoinDenom denom)
      else if addr ≠ [] then .sends (.poolByReserveAddress addr)
      else .panics

/-- `NewQueryPoolCmd` (x/dex/client/cli/query.go:247-318), with the flags `--pool-coin-denom` and `--reserve-address`. -/
def queryPool (denom addr : Text) (args : List Text) : Outcome Request :=
  maximumArgs 1 args <|
    if 0 < args.length then arg args 0 fun a0 => need (parseUint a0) fun id => poolRequest (some id) denom addr
    else poolRequest none denom addr

/-- `NewQueryDepositRequestsCmd` (x/dex/client/cli/query.go:321-371). -/
def queryDepositRequests (args : List Text) : Outcome Request :=
  exactArgs 1 args <| arg args 0 fun a0 => need (parseUint a0) fun id => .sends (.depositRequests id)

/-- `NewQueryDepositRequestCmd` (x/dex/client/cli/query.go:374-423): both numbers are read from `args[0]`. -/
def queryDepositRequest (args : List Text) : Outcome Request :=
  exactArgs 2 args <|
    arg args 0 fun a0 => need (parseUint a0) fun poolId =>
    arg args 0 fun a1 => need (parseUint a1) fun id => .sends (.depositRequest poolId id)

/-- `NewQueryWithdrawRequestsCmd` (x/dex/client/cli/query.go:426-476). -/
def queryWithdrawRequests (args : List Text) : Outcome Request :=
  exactArgs 1 args <| arg args 0 fun a0 => need (parseUint a0) fun id => .sends (.withdrawRequests id)

/-- `NewQueryWithdrawRequestCmd` (x/dex/client/cli/query.go:479-528): both numbers are read from `args[0]`. -/
def queryWithdrawRequest (args : List Text) : Outcome Request :=
  exactArgs 2 args <|
    arg args 0 fun a0 => need (parseUint a0) fun poolId =>
    arg args 0 fun a1 => need (parseUint a1) fun id => .sends (.withdrawRequest poolId id)

/-- `NewQueryOrdersCmd` (x/dex/client/cli/query.go:531-607), with the flag `--pair-id`. -/
def queryOrders (pairIdStr : Text) (args : List Text) : Outcome Request :=
  maximumArgs 1 args <|
    need (pairIdFlag pairIdStr) fun pairId =>
      match args with
      | [] => if pairId = 0 then .error else .sends (.orders pairId)
      | orderer :: _ => .sends (.ordersByOrderer orderer pairId)

/-- `NewQueryOrderCmd` (x/dex/client/cli/query.go:610-659). -/
def queryOrder (args : List Text) : Outcome Request :=
  exactArgs 2 args <|
    arg args 0 fun a0 => need (parseUint a0) fun pairId =>
    arg args 1 fun a1 => need (parseUint a1) fun id => .sends (.order pairId id)

/-- `NewQueryOrderBooksCmd` (x/dex/client/cli/query.go:662-716), with the flag `--num-ticks` (default 20). -/
def queryOrderBooks (numTicks : Nat) (args : List Text) : Outcome Request :=
  exactArgs 1 args <| arg args 0 fun a0 => need (parsePairIds (split ',' a0)) fun ids => .sends (.orderBooks ids numTicks)

end Verif.Cli

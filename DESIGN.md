# Formal model of defund-labs/defund (x/dex) in Lean 4

## 1. What is modelled

The custom logic of the chain is the `x/dex` module (a batch-auction exchange with AMM pools) plus the helpers in
`types/`.  The model follows it function by function.  Layout of `/verif/lean/Verif`:

* `Model/*`  executable, total Lean functions; each definition has a comment citing file and lines in `/repo`, and says
  what is simplified;
* `Spec/*`   small specifications used in theorem statements (what a tick is, what adjacent means, a fair execution, a
  ledger of who is owed what, ...), written without the model's helpers;
* `Proofs/*` helper lemmas and invariants (no property is stated there);
* `Props/*`  the property theorems `Cnn_...`, one file per group, each with a concrete case next to it that meets the
  hypotheses, and the refutations of the properties the code violates.

| file in /repo | model |
|---|---|
| cosmossdk.io/math LegacyDec / Int (external, v1.3.0) | `Model/Dec.lean` |
| x/dex/amm/tick.go | `Model/Tick.lean` |
| x/dex/amm/order.go, util.go (MatchableAmount, OfferCoinAmount, ...), types/order.go (priority) | `Model/Order.lean` |
| x/dex/amm/orderbook.go | `Model/OrderBook.lean` |
| x/dex/amm/match.go | `Model/Match.lean` |
| x/dex/amm/view.go, util.go (findFirstTrueCondition), match.go (FindMatchPrice) | `Model/View.lean` |
| x/dex/amm/pool.go, amm.go | `Model/Pool.lean` |
| x/dex/types/keys.go, pool.go (pool coin denom) | `Model/Keys.lean` |
| bank as used through expected_keepers.go, types/util.go (BulkSendCoinsOperation), derived addresses | `Model/Bank.lean` |
| x/dex/keeper/store.go (sorted stores, iteration with early stop and deletion) | `Model/Store.lean` |
| x/dex/types/msgs.go (ValidateBasic) | `Model/Msgs.lean` |
| x/dex/keeper/pair.go, pool.go, swap.go, msg_server.go, params.go, types/params.go, types/request.go | `Model/Keeper.lean` |
| x/dex/keeper/swap.go (matching), pool.go (requests), batch.go, x/dex/module/abci.go | `Model/Batch.lean` |
| x/dex/keeper/keeper.go, params.go (authority) | `Model/Admin.lean` |
| x/dex/types/genesis.go, x/dex/keeper/genesis.go, x/dex/module/genesis.go | `Model/Genesis.lean` |
| x/dex/keeper/invariants.go | `Model/Invariants.lean` |
| x/dex/types/orderbook.go, keeper/grpc_query.go (OrderBooks) | `Model/OrderBookQuery.lean` |
| x/dex/keeper/store.go (every Set/Get/Delete/Iterate function, on the bytes of keys.go) | `Model/KVStore.lean` |
| x/dex/keeper/grpc_query.go (all other queries), cosmos-sdk types/query FilteredPaginate (external, from memory) | `Model/Query.lean` |
| types/utils.go | `Model/Util.lean` |
| amm/pool.go, amm/order.go, amm/util.go, amm/match.go PriceDirection, with number-size limits | `Model/Checked.lean` |

Conventions:

* A `LegacyDec` is an `Int` counting 10^-18 units; an `sdk.Int` is an `Int`.  Arithmetic is unbounded: the 315-bit /
  256-bit overflow panics of the library are modelled only where the code catches them (`SafeMath`), and in
  `Model/Checked.lean`, which repeats the pool and order arithmetic with the limits; C74 says when both agree.
* A Go `panic` and a returned `error` are explicit results (`Option`, `none`), never a default.  A transaction that
  fails leaves the state as it was; a failing begin or end blocker halts the chain (`none`).
* Pointer mutation of orders becomes a heap indexed by order identity; a Go loop becomes structural recursion, a fold, or
  recursion on explicit fuel whose sufficiency is proved (C21, C12, C64).
* Go map iteration order is a parameter (any permutation); independence of it is a theorem where claimed (C24, C46).
* `ApproxSqrt` of the library is a parameter `sqrt` of the pool functions; the properties that need something about it
  say what.  `Model/Pool.lean` also contains the library's Newton iteration itself (`approxSqrt`), used in C56, C72 and the examples.
* Addresses: user `n`, the global escrow, the escrow of pair `n`, the reserve of pool `n`, the fee collector, the dust
  collector: pairwise distinct constructors (in the code they are hashes of distinct strings: C88).
* Time is in nanoseconds since the Unix epoch, `zeroTime` is Go's zero `time.Time`.
* The bank is a total function account -> denom -> Int plus a supply function; `SendCoins` fails when the sender lacks
  the amount.  Coins with a zero amount are kept in the lists where `sdk.NewCoins` would drop them (no effect on sums).
* `State.shortfall` is a ghost counter (never read by the model's behaviour) that records the base coin by which
  matchings paid out more than they collected (C36, C61).

A history is a list of operations `Op`: the messages of the module (create pair / pool / ranged pool, deposit, withdraw,
limit / market / market-making order, cancel, cancel all, cancel market-making orders), an ordinary bank transfer between
user accounts, a parameter change, the start and the end of a block.  `Reachable env s` (Spec/State) is: some history
leads from a genesis state with an arbitrary bank and arbitrary parameters to `s`.

### Known limits of the model

* Overflow of 256/315-bit numbers is outside the model, except inside `SafeMath`.
* A tick precision above 18 makes Go's `LowestTick` and friends panic (10^-n with n > 18); the model's `lowestTick`
  computes with natural-number powers instead.  Nothing is claimed for such a precision (C06, C59 assume `SaneParams`).
* `DownTick` of a non-positive price and `PoolSellOrders` for a negative pool price are outside the code's domain; the
  theorems assume positive ticks and non-negative pool prices (which every reachable state has: `C73_prices_nonneg`).
* The state machine works on lists of records sorted by id, with indexes modelled by filtering.  C68 proves that this is
  what the code's byte store amounts to: `Model/KVStore.lean` models every store function on byte keys, and every history
  of the state machine is a sequence of its calls after which look-ups, index look-ups and iterations return what the
  lists say (`Spec/Disk.lean` lists the groups of calls with their places in the code).  There the values are records; their
  protobuf encoding is modelled separately (C77).  The spelling of accounts and denoms as bytes is a parameter (injective).
* Generated protobuf code (C77-C79): `Model/Proto.lean` models the patterns of `MarshalToSizedBuffer`, `Size`, `Unmarshal` and
  `skipDex` once, `Model/Records.lean` lists the fields of each message with the tags and cases found in the .pb.go files
  (`Spec/WireFormat.lean` takes the same from the .proto files, and the two are proved to agree).  `Coin`, `UInt64Value`, `Timestamp`,
  `Duration` and the texts of `Int` and `LegacyDec` are modelled from knowledge of the libraries; reading of texts is
  restricted to decimal notation without leading zeros.  Query and response messages and JSON are not modelled.
* Queries: bech32 and denom syntax checks of requests and the fields of the pool response that repeat the pool are left out.

## 2. Trusted base

* Lean 4.33.0 kernel.  Every theorem of `MANIFEST.json` depends on at most the axioms `propext`, `Classical.choice` and
  `Quot.sound` (vcheck prints them).  No axioms of our own, no compiled evaluation; concrete cases are evaluated by the
  kernel (`decide +kernel`, `rfl`).
* The reading of /repo by the author of the model (the code is not run here), and of the `cosmossdk.io/math` rounding
  rules (Mul: half-even chop; Quo: `(a*10^36) quo b` truncated then half-even chop; Truncate variants toward zero;
  QuoRoundUp, Ceil up; ApproxSqrt: Newton, at most 300 iterations), re-stated in `Model/Dec.lean` from knowledge of
  v1.3.0 because the dependencies are not in the sandbox.
* Not modelled: encoding of query and response messages, JSON, gas, the text of event attributes and events of other modules, logging, gRPC plumbing, the client context and output of the CLI, simulation, migrations, the app
  wiring outside the dex module, IBC and the other SDK modules, vesting and blocked addresses in bank, 256/315-bit
  overflow other than at `SafeMath` and in the functions of C74, bech32 text of addresses, SHA-256 address derivation (derived module addresses are
  assumed pairwise distinct and controlled by no user key).

## 3. Plan and result per property

Status per property is in `MANIFEST.json`; `_partial` theorems are explained in section 4.

| id | modelled | theorem(s) say | proof method |
|---|---|---|---|
| C01-C05 | tick.go on raw integers; `IsTick` (Spec/Tick) speaks about significant digits, not about `PriceToDownTick` | greatest tick below / least above, adjacency, order isomorphism with indexes, extremes, rounding, random tick | arithmetic on powers of ten, monotonicity |
| C06 | PriceLimits, market order price, limit order fitting | limits are the extreme ticks in the window; the price stored; ratio one halts | from C01/C02 |
| C07-C10, C63 | Deposit, Withdraw with LegacyDec rounding | never more than offered, bounded dilution, never above the share, bounded profit, never short-changed | integer division inequalities, counterexamples to the exact forms |
| C11-C14, C51, C55, C56, C64 | basic and ranged pools, order ladders | offers within reserves, window, minimum amount, monotone depth, constant product, price defined, exact ladder; a ranged pool takes one of the two coins in full, at its price bounds only that one | loop invariants by induction on fuel |
| C15 | poolOrderPriceGapRatio | bounded, monotone, exact shape | case analysis |
| C16 | MatchableAmount | affordable and maximal, exact value | division inequalities |
| C17-C19 | orderbook.go, GroupOrdersByBatchId, SortOrders | sorted, complete, arrival order; group order; strict priority | induction on insertions |
| C20-C26 | match.go | fair execution, no panic, conservation, quote difference, pro-rata, priority, amount matched | loop invariants over the whole matching; C25 also from the stored orders, in the first trade of a pair (`C25_first_trade`: the records of a pair without a price are untraded (C85), the survivors are tied to the heap of the matching by `PairBatch`) |
| C27-C31, C53 | view.go, PriceDirection, FindMatchPrice, binary search | depth = sum over orders, combined views, first match price | sums over sorted lists, induction on interval length |
| C32-C34 | keys.go, PoolCoinDenom | injective, prefix-free, ordered; parse back | byte-list lemmas |
| C35-C46, C57-C60 | keeper as a state machine over a bank | escrow, solvency, cancellation, finished once, counters, ids, supply, requests executed once, life cycle, batch progress, ledger of every account | invariants by induction over histories; effect of each step as an exact iff / equation |
| C47 | ExportGenesis / InitGenesis / Validate | exact validity condition, round trip | from the state invariant |
| C48 | NewKeeper, UpdateParams | the configured authority is rejected | evaluation |
| C49 | MakeOrderBookPairs | response is the aggregation of the depth | C28, C30 |
| C50 | ValidateBasic | an invalid message has no effect; exact acceptance conditions | case analysis |
| C52 | types/utils.go helpers (byte helpers in `Model/UtilBytes`) | exact meaning | case analysis |
| C54 | pool orders through a batch | a pool trades on one side only | price limits, C27 |
| C61 | end blocker | halts (witness); conditions under which it succeeds | see 4 |
| C62 | invariants.go | each check is exact; which hold always | from the state invariant |
| C65 | match.go | no crossing pair of matchable orders is left | exhaustion of the ticks removed by the loop |
| C66 | match.go | trades only on the side of the last price the excess points to | the first stage exhausts the smaller side; induction over the loop |
| C67 | Params/Pair/Pool/request/Genesis Validate, InitGenesis | validation iff a declarative condition; import stores exactly the records | boolean to propositional, permutation of ordered inserts |
| C68 | store.go, keys.go | the byte store refines the records: look-ups, index look-ups, iterations, counters; nothing left behind | simulation: `Written` (store calls along the records) implies that the store is exactly the image of the records; every history is `Written` |
| C69 | grpc_query.go, FilteredPaginate | single-record queries iff; pages are windows and together the whole list | page loop by induction over the entries, on top of C68 |
| C70 | grpc_query.go Pairs by denom | as C69 for names up to 252 bytes together; false beyond | as C69, C33 |
| C71 | grpc_query.go Pools, Pool, PoolByReserveAddress, PoolByPoolCoinDenom | reports record, balances, supply, price; fails with an unpriced pool | as C69 |
| C72 | DecApproxSqrt (library Newton iteration as restated in Model/Pool) | error below one unit for all 315-bit numbers, monotone up to 10^20 | two one-sided invariants of the iteration and a halving bound on its length |
| C73 | createRangedPoolMsg, validateRangedPoolParams, deriveTranslation, Pool.price over all histories | stored ranges are valid ones; no pool price is negative | run-level invariant on ranges; case analysis of the rounded arithmetic of DeriveTranslation with the root bounds of C72 |
| C74 | pool.go, order.go, math.go and price direction with 315/256-bit limits (Model/Checked) | checked and unbounded results agree for amounts up to 10^36 or 10^40; false beyond, with an accepted order that halts the chain | bounds on every intermediate number; overflow witnesses computed in the kernel |
| C75 | pool.go, match.go, Params.priceLimits, placeOrder, createRangedPoolMsg over all histories | with a fixed tick precision, order prices, last prices and pool ranges are ticks; the last price is within its own limits | run-level invariant; the loops of pool orders and `Match` only visit ticks |
| C76 | ExecuteMatching, keeper Match, FinishOrder, expiry, over all histories | after a batch in a market above price one, every unfinished buy order (funded, able to pay for one unit) is priced below every unfinished sell order | C65 on the book of the pair with its pool orders; the records of the survivors are tied to the heap of the matching by `PairBatch`; the first batch of a pair without pools via the price search of C65 and C85 |
| C77 | dex.pb.go: Marshal, Size, Unmarshal of Pair, Pool, DepositRequest, WithdrawRequest, Order; Coin, UInt64Value, Timestamp | `Sent`: the bytes are the wire format of the .proto file, their number is Size, Unmarshal gives the record back; different records have different bytes | one lemma per field pattern (writes what the format says; reads back what is written), then field by field; varints and decimal texts by induction |
| C78 | tx.pb.go, params.pb.go, genesis.pb.go: the same for the eleven messages, Params, NumMMOrdersRecord, GenesisState; Duration | as C77 | as C77, nested |
| C79 | skipDex and the Unmarshal loop of all 21 messages | an unknown field of any type changes nothing; concatenated encodings are read one after the other | reading is stable under appended bytes; induction on nested groups |
| C80 | the typed values of C68 as the bytes the keeper marshals (Model/DiskBytes.lean) | every value can be marshalled and is read back; equal bytes imply equal records | C32 (keys determine the kind of entry), C68 (image of the records), C77 (records round trip) |
| C81 | transaction commands of the command line (Model/Cli.lean) as functions of the argument list | the message sent is the one the arguments spell, for every argument list; no panic | inversion of the readers; digits ↔ `Nat.ofDigits` by induction |
| C82 | `NewCancelAllOrdersCmd`, `strings.Split` | with an argument: exactly the ids between the commas; without: panics (witness), so the message for every pair is unreachable | split inverts joining with commas, by induction |
| C83 | query commands of the command line | the request is the one the arguments and flags spell; deposit-request and withdraw-request ignore their second argument (witness) | case analysis on the argument list |
| C84 | all of x/dex/keeper over two histories | two histories in which a market sees the same blocks, parameter changes and accepted messages leave it the same (records, reserves, pool coins), whatever happens elsewhere; other markets can only halt the chain (`C84_other_market_halts`); a message about the market is accepted or refused alike in both if its sender and the escrow account of the pair have the same balances (`C84_same_answer`) | two-run simulation: every store loop of the batch preserves equality of the slice of the pair, steps of other pairs do not touch it |
| C85 | placeOrder, priceAllowed, executeMatching over all histories | a pair without a last price has only untraded orders at supported ticks; the price changes only in batches and never goes away | invariant of runs, on `step_effect` and the batch specification |
| C86 | every EmitEvents of x/dex/keeper, over all histories | a strict client that reads only the events of one id knows the stored order or request exactly (terms, running amounts, result), never sees a second placement or result, and an id without record is untold or told to the end; the events that announce pairs and pools are the stored ones in order; a message has events iff it is accepted | event functions beside each keeper function (`Model/Events`); invariant `Tells` between log and records carried through every loop of the batch |
| C87 | the same events, read as payments | `said`/`saidSupply` (`Spec/Events`) sum up what the log says an account got or a pool coin's supply gained; the balance after a step, and after a history, is the balance before plus that sum, for every account but pair escrows and the ones `ToldOf` names (fees, new pool's coins, bank transfers, dust); each event repeats its message (`Repeats`); in sane chains each match event is a list of trades within the limits (`MatchTrue`) | induction through every loop of the batch, on top of the escrow accounting of C36/C61 |
| C88 | the texts account addresses are derived from, hash function abstract (`Model/Address`) | decimal notation is injective, prefixes differ, a module name without zero byte is delimited; addresses agree only for equal accounts or at a collision of two named texts; lengths; the 20-byte type refuted |

Hypotheses used over histories: `Reachable` (any history) for C35, C37-C48, C57, C58, C60, C62; `SaneChain` (before each
end of block: price limit ratio below one, tick precision at most 18, the dust collector is no pool reserve, no pool has a
negative price) for C36, C54, C59.  `C59_params_suffice` derives `SaneChain` from the two conditions on parameters alone, with the
library's square root.  Concrete sane histories are evaluated in `Proofs/SaneDemo.lean` and next to the
theorems.

## 4. Properties the code violates, and partial theorems

* **C22 / C36 / C61 / C62 (dropped sell dust)**: `DistributeOrderAmountToOrders` drops orders whose pro-rata share is
  worth nothing and forgets their part; buyers then receive more base coin than sellers gave.  Witnesses:
  `C22_not_conserved`, `C36_not_covered` (escrow of a pair short after a sane history), `C61_end_block_halts` (the end
  blocker panics: chain halt), `C62_offer_check_fails`.  Proved: never the other way round; equality when all prices are
  at least one (`C22_base_conserved_high_prices_partial`: it suffices that every sell limit is at least one); escrow cover
  up to exactly the recorded shortfall; full cover in every history without a price below one (`C36_high_prices_partial`),
  in which moreover no end of block halts (`C61_high_prices_partial`, `C61_end_block_succeeds_partial`) as long as the
  pools can be computed and the withdraw fee rate is at most one.
* **C61, second reason**: `DeriveTranslation` divides by `1/sqrt(P) - 1/sqrt(L)`, which may round to zero although
  `sqrt(P)` and `sqrt(L)` differ.  Creating a ranged pool and sending one base coin to its reserve account is enough to
  halt the chain (`C61_ranged_pool_halts`; the numbers depend on the modelled square root `ApproxRoot(2)`).
* **C54**: with buy orders that are dust at the last price a pool can be matched on both sides in one batch and the end
  blocker panics with "wrong order direction" (`C54_both_sides_halts`).  Proved for the first batch, for last prices of at
  least one, and in the absence of dust buys.
* **C33**: the length arithmetic of `ParsePairsByDenomsIndexKey` wraps at 8 bits (`C33_pairs_by_denoms_fails`).
* **C47**: `Validate` rejects an export with a single-coin deposit request (`C47_export_rejected`); the module-level
  `InitGenesis`/`ExportGenesis` handle only the parameters (`C47_module_export_loses_all`).
* **C67**: a valid genesis may list an order above the pair's last order id, which the next order overwrites
  (`C67_valid_genesis_overwritten`).
* **C66**: below price one a falling market can trade above the last price (`C66_wrong_way_below_one`).
* **C70**: by the C33 defect, one pair with long denoms makes the query for the pairs of these denoms panic
  (`C70_long_denoms_fail`).  **C71**: one live pool whose price cannot be computed makes every page of the pools query that
  contains it fail (`C71_unpriced_pool_fails`).  **C69**: with page size 2^64-1 a filtering query stops early
  (`C69_largest_page_size_stops`; a wrap-around in the SDK).
* **C82 / C83**: `cancel-all-orders` without arguments panics, so its message for every pair cannot be sent
  (`C82_no_argument_panics`, `C82_every_pair_unreachable`); the commands deposit-request and withdraw-request take the request
  id from their first argument (`C83_second_argument_ignored`, `C83_wrong_request`).
* **C48**: `NewKeeper` drops the authority, so `UpdateParams` rejects the configured authority (`C48_authority_rejected`).
* **C53**: `OrderBookView.Match` leaves an exactly balanced book crossed (`C53_not_uncrossed`).
* **C55**: a ranged pool with reserves (7, 0) and a huge range is not depleted, yet `Price` panics
  (`C55_ranged_price_panics`).
* **C73**: `DeriveTranslation` can give negative translations for a valid narrow range near the lowest price
  (`C73_negative_translation`); the price stays non-negative in every case.
* **C74**: a sell order whose value at its own price can be stored is accepted although its value at the last price cannot;
  `PriceDirection` then panics in the end blocker (`C74_accepted_order_overflows`).  A ranged pool with 10^70 units
  overflows in `DeriveTranslation` (`C74_ranged_pool_overflows`).
* **C75**: a change of the tick precision leaves orders whose price is no tick (`C75_precision_change_breaks`).
* **C06**: parameter validation admits a price limit ratio of one, with which the end blocker panics
  (`C06_ratio_one_halts`); a withdraw fee rate above one is admitted too (`C09_fee_above_one_negative`).
* **C08, C10, C14 (exact forms)**: `C08_exact_coverage_fails`, `C10_profit_by_rounding`, `C14_exact_product_fails`; the
  properties are stated with the exact rounding slack.
* **C49**: the query reports pool orders as user orders (`C49_pool_orders_shown_as_user_orders`).
* Other observations: the module registers no invariants (`RegisterInvariants` is empty); cancelling a completed or
  expired order succeeds without effect; the number-of-MM-orders check does not see live orders without a counter
  (`C62_checks_exact`); `SafeMath` does not catch overflow panics that carry an error value; `BuyAmountUnder` and
  `SellAmountOver` of an empty view panic; `types/utils.go` helpers are unused by the module.

## 5. Testing the theorems against wrong programs

`/verif/seeded/LOG.jsonl` records edits of the model as realistic bugs would change the program, the claim broken, the
theorems that stopped proving, and what was tightened when none did.

{"id": "C01", "title": "Down-tick is the greatest tick not above the price", "statement": "For every positive price and every tick precision, PriceToDownTick returns a valid tick (a price with at most precision+1 significant digits of its 1e-18 representation), which is <= the price, and no valid tick lies strictly between it and the price; applying it to a tick returns the tick unchanged.", "quantifier": "all positive decimal prices, all tick precisions", "why_tests_cant": "The set of prices is unbounded; the boundary cases sit at powers of ten of every magnitude, so tables of examples cannot cover them.", "anchors": ["x/dex/amm/tick.go:PriceToDownTick", "x/dex/amm/tick.go:char"]}
{"id": "C02", "title": "Up-tick is the least tick not below the price", "statement": "For every positive price and every precision, PriceToUpTick returns a valid tick >= the price and no valid tick lies in between.", "quantifier": "all positive decimal prices, all tick precisions", "why_tests_cant": "Unbounded domain; carries across a power of ten occur at every magnitude.", "anchors": ["x/dex/amm/tick.go:PriceToUpTick", "x/dex/amm/tick.go:UpTick"]}
{"id": "C03", "title": "UpTick and DownTick step to the adjacent tick and undo each other", "statement": "UpTick(price) is the smallest tick strictly above the price, DownTick(price) is the largest tick strictly below it (when the price is above the finest region, i.e. at least the lowest full-precision tick), and on ticks each undoes the other. Below that region DownTick steps by one 1e-18 unit.", "quantifier": "all positive prices and precisions", "why_tests_cant": "Adjacent-tick gaps change at every power of ten; only a proof covers all magnitudes.", "anchors": ["x/dex/amm/tick.go:UpTick", "x/dex/amm/tick.go:DownTick", "x/dex/amm/tick.go:isPow10", "x/dex/amm/tick.go:pow10"]}
{"id": "C04", "title": "Tick index is an order isomorphism", "statement": "TickToIndex and TickFromIndex are mutually inverse between ticks >= LowestTick and indices >= 0, LowestTick has index 0, and a larger tick has a larger index, adjacent ticks having adjacent indices.", "quantifier": "all tick indices >= 0 and all ticks >= LowestTick, all precisions", "why_tests_cant": "The binary search for a match price silently breaks if monotonicity fails at a single index; there are unboundedly many.", "anchors": ["x/dex/amm/tick.go:TickToIndex", "x/dex/amm/tick.go:TickFromIndex", "x/dex/amm/tick.go:LowestTick"]}
{"id": "C05", "title": "RoundPrice returns a tick next to the price, rounding to even index", "statement": "RoundPrice returns the price itself when it is a tick; otherwise it returns one of the two ticks adjacent to the price, namely the one whose index is even.", "quantifier": "all prices >= LowestTick, all precisions", "why_tests_cant": "Parity of indices around every decade boundary cannot be enumerated.", "anchors": ["x/dex/amm/tick.go:RoundPrice", "x/dex/amm/tick.go:RoundTickIndex"]}
{"id": "C06", "title": "Price limits are ticks bracketing the last price", "statement": "For a positive last price and 0 <= ratio < 1, PriceLimits returns two ticks lowest and highest with last*(1-ratio) <= lowest and highest <= last*(1+ratio) (up to the 1e-18 rounding of the product). A limit order accepted inside the limits is stored with a tick price still inside the limits. For ratio >= 1, which Params.Validate accepts, PriceLimits panics or yields nonsense.", "quantifier": "all last prices, ratios and precisions", "why_tests_cant": "Rounding the stored price after the range check could leave the range for some price; only a proof over all prices excludes it.", "anchors": ["x/dex/types/util.go:PriceLimits", "x/dex/keeper/swap.go:placeOrder", "x/dex/types/params.go:validateMaxPriceLimitRatio"]}
{"id": "C07", "title": "A deposit never takes more than was offered", "statement": "Deposit(rx, ry, ps, x, y) accepts ax <= x and ay <= y, all amounts are non-negative, and nothing is taken when no pool coin is minted.", "quantifier": "all reserves, supplies and offered amounts that are non-negative with at least one positive reserve and positive supply", "why_tests_cant": "The accepted amounts are ceilings of products of rounded quotients; an off-by-one would only show for special ratios.", "anchors": ["x/dex/amm/pool.go:Deposit"]}
{"id": "C08", "title": "A deposit does not dilute existing liquidity providers beyond rounding", "statement": "After a deposit the minted share pc/ps never exceeds x/rx or y/ry, and the accepted amounts cover the minted share of each reserve up to the rounding of one 1e-18 unit of the ratio: ax >= rx*pc/ps - rx*0.5e-18 (same for y). Exact coverage (no dilution at all) is false.", "quantifier": "all reserves, supplies and offered amounts", "why_tests_cant": "The worst case of half-even rounding is reached only for special quotients.", "anchors": ["x/dex/amm/pool.go:Deposit"]}
{"id": "C09", "title": "A withdrawal never pays more than the proportional share", "statement": "Withdraw(rx, ry, ps, pc, fee) with 0 <= pc <= ps and 0 <= fee <= 1 pays 0 <= x <= rx*pc/ps*(1-fee) and 0 <= y <= ry*pc/ps*(1-fee) if pc < ps, and exactly (rx, ry) if pc = ps. Pool coin value of remaining holders never decreases. With fee > 1, which Params.Validate accepts, the result is negative.", "quantifier": "all reserves, supplies, redeemed amounts and fee rates", "why_tests_cant": "Ratios are arbitrary rationals; overpayment by one unit would be exploitable by repetition.", "anchors": ["x/dex/amm/pool.go:Withdraw", "x/dex/types/params.go:validateWithdrawFeeRate"]}
{"id": "C10", "title": "Deposit then withdraw never makes a profit beyond the bounded rounding", "statement": "A user who deposits and then withdraws exactly the minted pool coins receives at most what was accepted plus a bounded rounding remainder, for any fee rate in [0,1].", "quantifier": "all pools and deposits", "why_tests_cant": "Profit could come from an unlucky combination of two roundings.", "anchors": ["x/dex/amm/pool.go:Deposit", "x/dex/amm/pool.go:Withdraw"]}
{"id": "C11", "title": "A pool never offers more than its reserves", "statement": "For every pool (basic or ranged) and every price window, the sum of the offer coins of all buy orders generated by PoolBuyOrders is at most the quote reserve, and the sum of the amounts of all sell orders generated by PoolSellOrders is at most the base reserve.", "quantifier": "all pools, reserves, price windows, precisions, and any square-root routine with non-negative results", "why_tests_cant": "Orders are generated by a loop of unbounded length, each step with its own rounding.", "anchors": ["x/dex/amm/pool.go:PoolBuyOrders", "x/dex/amm/pool.go:PoolSellOrders", "x/dex/amm/pool.go:BuyAmountOver", "x/dex/amm/pool.go:SellAmountUnder", "x/dex/amm/pool.go:BuyAmountTo", "x/dex/amm/pool.go:SellAmountTo"]}
{"id": "C12", "title": "Pool orders stay in the price window, respect the minimum amount and the loops terminate", "statement": "All generated pool orders have a price within [lowest, highest], an amount of at least 100, buy prices are non-increasing and below or equal to the pool price, sell prices non-decreasing and at or above it; both generation loops terminate.", "quantifier": "all pools and price windows with positive lowest price", "why_tests_cant": "Loop of unbounded length; termination is not testable.", "anchors": ["x/dex/amm/pool.go:PoolBuyOrders", "x/dex/amm/pool.go:PoolSellOrders", "x/dex/amm/util.go:poolOrderPriceGapRatio"]}
{"id": "C13", "title": "Pool depth functions are monotone in price and bounded by the reserves", "statement": "BuyAmountOver is non-increasing and SellAmountUnder non-decreasing in the price, both are non-negative, the cost of BuyAmountOver at its price is at most the quote reserve, SellAmountUnder is at most the base reserve, and they are never both positive at one price.", "quantifier": "all pools and all pairs of positive prices", "why_tests_cant": "Monotonicity is a statement about all pairs of prices; the match-price binary search depends on it.", "anchors": ["x/dex/amm/pool.go:BasicPool.BuyAmountOver", "x/dex/amm/pool.go:BasicPool.SellAmountUnder", "x/dex/amm/pool.go:RangedPool.BuyAmountOver", "x/dex/amm/pool.go:RangedPool.SellAmountUnder"]}
{"id": "C14", "title": "Trading against a basic pool does not reduce its constant product beyond one rounding unit", "statement": "When a basic pool trades against the n orders it generated inside the price window, each filled in any part at its limit or better, reserves (X, Y) become (X', Y') with X'*Y' >= X*Y - n*Y' for buys and X'*Y' >= X*Y - n*Y for sells; for one completely filled order the loss is below the base reserve after the trade; exact non-decrease is false.", "quantifier": "all reserves and tick prices", "why_tests_cant": "A value leak by rounding occurs only for particular residues.", "anchors": ["x/dex/amm/pool.go:BasicPool.BuyAmountOver", "x/dex/amm/pool.go:BasicPool.SellAmountUnder", "x/dex/amm/pool.go:PoolBuyOrders"]}
{"id": "C15", "title": "Price gap ratio is bounded, monotone and piecewise continuous", "statement": "poolOrderPriceGapRatio always lies in [0.00003, 0.005], and depends only on the relative distance, monotonically.", "quantifier": "all pool prices and current prices", "why_tests_cant": "Breakpoints of a piecewise function with rounding.", "anchors": ["x/dex/amm/util.go:poolOrderPriceGapRatio"]}
{"id": "C16", "title": "Matchable amount is affordable", "statement": "MatchableAmount(order, price) is between 0 and the open amount; for a buy order the ceiling cost of the matchable amount never exceeds the unpaid offer coin; for a positive result the quote value is at least one unit.", "quantifier": "all orders and prices", "why_tests_cant": "Truncating division then ceiling multiplication; the off-by-one only appears for special residues.", "anchors": ["x/dex/amm/util.go:MatchableAmount", "x/dex/amm/util.go:OfferCoinAmount"]}
{"id": "C17", "title": "Order book is sorted and holds every matchable order once, in arrival order per price", "statement": "After adding any sequence of orders, buy ticks have strictly decreasing and sell ticks strictly increasing prices, each tick holds exactly the matchable orders of its direction and price in arrival order, and orders without matchable amount are absent.", "quantifier": "all sequences of orders", "why_tests_cant": "Every insertion sequence.", "anchors": ["x/dex/amm/orderbook.go:AddOrder", "x/dex/amm/orderbook.go:orderBookTicks.addOrder", "x/dex/amm/orderbook.go:findPrice"]}
{"id": "C18", "title": "Order groups are ordered by age with current-batch (pool) orders last", "statement": "GroupOrdersByBatchId partitions the orders by batch id, preserving their relative order; groups have strictly increasing batch ids except that batch id 0 comes last.", "quantifier": "all lists of orders", "why_tests_cant": "Uses binary search with an irregular comparison; all insertion orders must be covered.", "anchors": ["x/dex/amm/util.go:GroupOrdersByBatchId"]}
{"id": "C19", "title": "Priority is a strict order and sorting by it is a stable permutation", "statement": "HasPriority is irreflexive and transitive on user/pool orders, total on orders that differ in amount or identity; SortOrders yields a permutation in which no order is preceded by one of lower priority.", "quantifier": "all lists of user and pool orders", "why_tests_cant": "Strict weak order laws quantify over all triples.", "anchors": ["x/dex/types/order.go:UserOrder.HasPriority", "x/dex/types/order.go:PoolOrder.HasPriority", "x/dex/amm/util.go:SortOrders"]}
{"id": "C20", "title": "A fill never exceeds what the order can pay and never violates its limit price", "statement": "In every matching (single price or sequential), each order pays at most its offer coin, its open amount stays within [0, amount] and falls exactly by the filled amount; every buy is executed at a price <= its limit and every sell at a price >= its limit; buyers pay the ceiling, sellers receive the floor of price*amount.", "quantifier": "all order books, all last prices", "why_tests_cant": "All books of any size and all partial fill histories.", "anchors": ["x/dex/amm/match.go:FillOrder", "x/dex/amm/match.go:MatchAtSinglePrice", "x/dex/amm/match.go:Match"]}
{"id": "C21", "title": "Matching never aborts", "statement": "The internal panic 'cannot match more than open amount' is unreachable from Match and MatchAtSinglePrice, the candidate search and the matching loop terminate.", "quantifier": "all order books, all prices", "why_tests_cant": "Absence of a panic over all inputs; a panic in the end blocker halts the chain.", "anchors": ["x/dex/amm/match.go:FillOrder", "x/dex/amm/match.go:FindMatchableAmountAtSinglePrice", "x/dex/amm/match.go:Match", "x/dex/amm/match.go:DistributeOrderAmountToOrders"]}
{"id": "C22", "title": "Base coin is conserved by matching", "statement": "The total base amount received by buyers equals the total base amount paid by sellers. This is FALSE for the code when some sell share is worth less than one quote unit (the share is dropped and not redistributed): buyers then receive more than sellers pay. It holds whenever every execution price is at least one, and buyers' total is never below sellers' total.", "quantifier": "all order books and last prices", "why_tests_cant": "The failure needs a particular combination of partial fills and dust.", "anchors": ["x/dex/amm/match.go:DistributeOrderAmountToOrders", "x/dex/amm/match.go:DistributeOrderAmountToTick", "x/dex/amm/match.go:Match"]}
{"id": "C23", "title": "Quote coin difference of a matching is non-negative and exact", "statement": "quoteCoinDiff returned by matching equals the total quote paid by buyers minus the total quote received by sellers, and is never negative, so the dust transfer is always well-defined.", "quantifier": "all order books, all prices", "why_tests_cant": "A negative difference would panic while constructing the coin and halt the chain; all roundings must be covered.", "anchors": ["x/dex/amm/match.go:MatchAtSinglePrice", "x/dex/amm/match.go:Match", "x/dex/keeper/swap.go:ApplyMatchResult"]}
{"id": "C24", "title": "Pro-rata distribution is independent of map iteration order and never over-distributes", "statement": "DistributeOrderAmountToOrders gives each order at most its matchable amount and in total at most the given amount; for buy orders (and for sells at price >= 1) exactly the given amount if the orders can absorb it; and the result does not depend on the iteration order of the internal map.", "quantifier": "all order lists, amounts, prices, and all iteration orders of the map", "why_tests_cant": "Go randomises map iteration; all orders and amounts must be covered.", "anchors": ["x/dex/amm/match.go:DistributeOrderAmountToOrders"]}
{"id": "C25", "title": "Price and batch priority", "statement": "Within one tick, orders of a newer batch receive something only if all older groups' matchable amounts are exhausted; at a single price, a worse-priced tick receives something only if all better-priced ticks are exhausted. In the first trade of a pair, seen from the stored orders: if an order trades, no better-priced sell order is left unfinished, and a better-priced buy order is left unfinished only if all of it is worth less than one quote unit at the trade price.", "quantifier": "all order books; all reachable states of a pair without a last price, with or without pools", "why_tests_cant": "All books and all partial fill patterns.", "anchors": ["x/dex/amm/match.go:DistributeOrderAmountToTick", "x/dex/amm/match.go:MatchAtSinglePrice"]}
{"id": "C26", "title": "Amount matched at a single price is positive and available on both sides", "statement": "FindMatchableAmountAtSinglePrice, when found, returns a positive amount not above the matchable total of buys at or above the price nor of sells at or below it; it reports not found when either side has no eligible tick.", "quantifier": "all order books and prices", "why_tests_cant": "Iterative elimination of ticks; all books.", "anchors": ["x/dex/amm/match.go:FindMatchableAmountAtSinglePrice"]}
{"id": "C27", "title": "Estimated price direction", "statement": "PriceDirection is increasing iff buys above the last price exceed all sells at or below it, decreasing iff sells below exceed all buys at or above; the two cannot both hold.", "quantifier": "all order books, all last prices", "why_tests_cant": "Sums over sorted ticks of unbounded number.", "anchors": ["x/dex/amm/match.go:PriceDirection"]}
{"id": "C28", "title": "Order book view equals the depth of the book", "statement": "BuyAmountOver/BuyAmountUnder/SellAmountUnder/SellAmountOver of a view made from a book equal the sums of matchable amounts (at own price) of the orders on the corresponding side of the price, inclusive or exclusive; over and under parts add up to the total.", "quantifier": "all order books and prices", "why_tests_cant": "Binary search over accumulated sums; all books.", "anchors": ["x/dex/amm/view.go:MakeView", "x/dex/amm/view.go:BuyAmountOver", "x/dex/amm/view.go:SellAmountUnder"]}
{"id": "C29", "title": "Combined views add up", "statement": "MultipleOrderViews amounts are the sums of the parts, highest buy price is the maximum and lowest sell price the minimum of those present.", "quantifier": "all lists of views", "why_tests_cant": "Unbounded lists.", "anchors": ["x/dex/amm/view.go:MultipleOrderViews"]}
{"id": "C30", "title": "Binary search finds the first index satisfying a monotone condition", "statement": "findFirstTrueCondition(start, end, f) returns the first index in direction start -> end at which a monotone f holds, or not found iff none does, in both directions.", "quantifier": "all ranges and monotone predicates", "why_tests_cant": "All predicates and ranges.", "anchors": ["x/dex/amm/util.go:findFirstTrueCondition"]}
{"id": "C31", "title": "First match price balances the book", "statement": "FindMatchPrice on any combination of book and pool depth (antitone buy depth, monotone sell depth) returns a tick price between the lowest tick i with positive sell depth covering the buy depth above it and the highest tick j with positive buy depth covering the sell depth below it; it returns not-found iff the best prices do not cross or no such ticks exist.", "quantifier": "all order views with monotone depth", "why_tests_cant": "Search space has millions of ticks; correctness is for all depth functions.", "anchors": ["x/dex/amm/match.go:FindMatchPrice"]}
{"id": "C32", "title": "Store keys never collide and iterate in id order", "statement": "Different entities (pair, pool, request, order, index entries, counters, parameters) never share a store key; keys of one kind are injective in their ids; byte order of keys equals numeric order of ids, so iteration is in id order; a prefix scan for one pair, denom or address returns exactly its entries.", "quantifier": "all 64-bit ids, addresses up to 255 bytes, denoms of 1..255 bytes", "why_tests_cant": "All pairs of keys.", "anchors": ["x/dex/types/keys.go:GetPairKey", "x/dex/types/keys.go:GetOrderKey", "x/dex/types/keys.go:GetOrderIndexKey", "x/dex/types/keys.go:GetPairsByDenomsIndexKey"]}
{"id": "C33", "title": "Index keys parse back", "statement": "Parsing a pools-by-pair, deposit/withdraw/order index or MM-counter key returns exactly the address and ids it was built from (addresses of 20 or 32 bytes). For pairs-by-denoms keys this is FALSE for valid denoms whose lengths sum to 253 or more, because offsets are computed in 8-bit arithmetic.", "quantifier": "all ids, addresses and denoms", "why_tests_cant": "All lengths; wrap-around at one particular length.", "anchors": ["x/dex/types/keys.go:ParsePairsByDenomsIndexKey", "x/dex/types/keys.go:ParseOrderIndexKey", "x/dex/types/keys.go:ParsePoolsByPairIndexKey", "x/dex/types/keys.go:ParseNumMMOrdersKey"]}
{"id": "C34", "title": "Pool coin denom names exactly one pool", "statement": "PoolCoinDenom is injective and ParsePoolCoinDenom returns the pool id for every positive id, and rejects strings that are not of the form pool<positive decimal>.", "quantifier": "all 64-bit pool ids and all strings", "why_tests_cant": "All ids and strings.", "anchors": ["x/dex/types/pool.go:PoolCoinDenom", "x/dex/types/pool.go:ParsePoolCoinDenom"]}
{"id": "C35", "title": "Placing an order escrows exactly its offer coin", "statement": "A successful limit, market or MM order moves exactly the needed offer coin (ceil(price*amount) quote for a buy, amount base for a sell, never more than offered) from the orderer to the pair escrow, stores one new order with a fresh id, full open amount and the current batch id, and changes no other balance; a rejected order changes nothing.", "quantifier": "all states and all order messages", "why_tests_cant": "All states and messages.", "anchors": ["x/dex/keeper/swap.go:placeOrder", "x/dex/keeper/swap.go:LimitOrder", "x/dex/keeper/swap.go:MarketOrder", "x/dex/keeper/swap.go:MMOrder"]}
{"id": "C36", "title": "Pair escrow always covers the remaining offer coins of live orders", "statement": "In every reachable state each pair's escrow account holds at least the sum of remaining offer coins of the pair's unfinished orders. FALSE in general for the code because of the dropped sell dust (C22): a concrete history breaks it. It holds for all histories in which every batch's matching conserves base coin.", "quantifier": "all histories of messages, transfers and blocks", "why_tests_cant": "A safety invariant over unbounded histories.", "anchors": ["x/dex/keeper/invariants.go:RemainingOfferCoinEscrowInvariant", "x/dex/keeper/swap.go:ApplyMatchResult", "x/dex/keeper/swap.go:FinishOrder"]}
{"id": "C37", "title": "Global escrow always covers pending deposits and withdrawals", "statement": "In every reachable state the global escrow holds, per denom, at least the coins of all unexecuted deposit requests plus the pool coins of all unexecuted withdraw requests.", "quantifier": "all histories", "why_tests_cant": "Safety invariant over unbounded histories.", "anchors": ["x/dex/keeper/invariants.go:DepositCoinsEscrowInvariant", "x/dex/keeper/invariants.go:PoolCoinEscrowInvariant", "x/dex/keeper/pool.go:ExecuteDepositRequest", "x/dex/keeper/pool.go:ExecuteWithdrawRequest"]}
{"id": "C38", "title": "Only the owner can cancel, and only from a later batch", "statement": "CancelOrder succeeds exactly if the order exists, belongs to the sender, is not already canceled and was placed in an earlier batch; it refunds exactly the remaining offer coin to the owner. CancelAllOrders is accepted exactly if the pairs it names exist, and affects exactly the sender's unfinished orders of older batches in the selected pairs and nothing else. A cancellation changes the state exactly if there is an unfinished order to cancel. (Acceptance needs the escrow account to cover the order, C36.)", "quantifier": "all states and messages", "why_tests_cant": "All states; authorisation must hold for every order.", "anchors": ["x/dex/keeper/swap.go:CancelOrder", "x/dex/keeper/swap.go:CancelAllOrders", "x/dex/keeper/swap.go:ValidateMsgCancelOrder"]}
{"id": "C39", "title": "An order is finished and refunded at most once", "statement": "Finishing an order refunds exactly its remaining offer coin and marks it; once completed, canceled or expired an order never changes status again, receives no further refund, and is deleted at the next block start.", "quantifier": "all histories", "why_tests_cant": "Exactly-once over unbounded histories.", "anchors": ["x/dex/keeper/swap.go:FinishOrder", "x/dex/keeper/batch.go:ExecuteRequests", "x/dex/keeper/batch.go:DeleteOutdatedRequests"]}
{"id": "C40", "title": "MM order counter equals the number of live MM orders and respects the cap", "statement": "In every reachable state, for each orderer and pair, the stored counter equals the number of unfinished MM orders, hence never exceeds the largest cap that was in force.", "quantifier": "all histories", "why_tests_cant": "Counter consistency over unbounded histories.", "anchors": ["x/dex/keeper/invariants.go:NumMMOrdersInvariant", "x/dex/keeper/swap.go:MMOrder", "x/dex/keeper/swap.go:FinishOrder"]}
{"id": "C41", "title": "Ids are unique and never reused; pairs are unique per ordered denom pair", "statement": "Pair, pool, request and order ids are assigned consecutively from 1, are never reused even after deletion, and at most one pair exists for each (base, quote).", "quantifier": "all histories", "why_tests_cant": "Uniqueness over unbounded histories with deletions.", "anchors": ["x/dex/keeper/pair.go:CreatePair", "x/dex/keeper/pool.go:getNextPoolIdWithUpdate", "x/dex/keeper/store.go:GetPairByDenoms"]}
{"id": "C42", "title": "Token supply is conserved", "statement": "No message or block changes the total supply of any denom except pool coins, whose supply changes only by pool creation and deposits (mint) and withdrawals (burn) of that pool; all other effects are transfers.", "quantifier": "all histories", "why_tests_cant": "Conservation over all histories.", "anchors": ["x/dex/keeper/pool.go:CreatePool", "x/dex/keeper/pool.go:ExecuteDepositRequest", "x/dex/keeper/pool.go:ExecuteWithdrawRequest", "x/dex/keeper/swap.go:ApplyMatchResult"]}
{"id": "C43", "title": "Deposit and withdraw requests are executed exactly once and refunded exactly on failure", "statement": "Every accepted request is executed in the first batch after acceptance: either it succeeds (accepted + refunded = offered, minted coins delivered; or withdrawn coins delivered and pool coin burnt) or fails with a full refund; a request never executes twice and is deleted at the next block start.", "quantifier": "all histories", "why_tests_cant": "Exactly-once over unbounded histories.", "anchors": ["x/dex/keeper/pool.go:ExecuteDepositRequest", "x/dex/keeper/pool.go:FinishDepositRequest", "x/dex/keeper/pool.go:ExecuteWithdrawRequest", "x/dex/keeper/pool.go:FinishWithdrawRequest"]}
{"id": "C44", "title": "Pool lifecycle", "statement": "A disabled pool never becomes active again and accepts no deposit or withdraw; at most one active basic pool per pair is ever created, the number of active pools per pair never exceeds the cap in force at creation; an active pool always has positive pool coin supply.", "quantifier": "all histories", "why_tests_cant": "Lifecycle over unbounded histories.", "anchors": ["x/dex/keeper/pool.go:ValidateMsgCreatePool", "x/dex/keeper/pool.go:MarkPoolAsDisabled", "x/dex/keeper/invariants.go:PoolStatusInvariant"]}
{"id": "C45", "title": "Batch progress and expiry", "statement": "Each executed batch increments every pair's batch id by exactly one; a new order takes part in at least one batch before it can expire, and after the batch no unfinished order is expired or smaller than the minimum.", "quantifier": "all histories", "why_tests_cant": "Liveness-like guarantee per batch over all states.", "anchors": ["x/dex/keeper/swap.go:ExecuteMatching", "x/dex/keeper/batch.go:ExecuteRequests", "x/dex/module/abci.go:EndBlocker"]}
{"id": "C46", "title": "Bulk send equals sequential sends", "statement": "Running a bulk send operation changes every balance by exactly the sum of the queued transfers, total supply unchanged; grouping by (from, to) does not change the result when it succeeds.", "quantifier": "all queues and balances", "why_tests_cant": "All queues.", "anchors": ["x/dex/types/util.go:BulkSendCoinsOperation"]}
{"id": "C47", "title": "Genesis export/import preserves the exchange state", "statement": "Exporting genesis and importing it restores all pairs, pools, requests, orders and counters. TRUE for the keeper-level functions on valid states; FALSE for the module-level functions actually wired into the app, which keep only the parameters; FALSE also because validation rejects a pending single-coin deposit into a ranged pool.", "quantifier": "all states", "why_tests_cant": "All states.", "anchors": ["x/dex/keeper/genesis.go:InitGenesis", "x/dex/keeper/genesis.go:ExportGenesis", "x/dex/module/genesis.go:InitGenesis", "x/dex/module/genesis.go:ExportGenesis", "x/dex/types/genesis.go:Validate"]}
{"id": "C48", "title": "Parameters can be changed by the configured authority and only by it", "statement": "UpdateParams succeeds iff the signer is the authority the keeper was configured with. FALSE for the code: NewKeeper drops the authority, so the configured authority is always rejected and only an empty authority string would pass.", "quantifier": "all authorities and messages", "why_tests_cant": "The configured value flows through construction; holds for all authorities or none.", "anchors": ["x/dex/keeper/keeper.go:NewKeeper", "x/dex/keeper/msg_server.go:UpdateParams"]}
{"id": "C49", "title": "Order book query response is a faithful aggregation", "statement": "FitPriceToTickGap returns the nearest multiple of the gap in the requested direction. A successful order book query answers for exactly the pairs asked for; per pair and price unit it lists, best-first up to the requested number, every non-empty price bucket within the price limits, with exactly the remaining depth of live user orders and pool orders in that bucket after removing what can trade now, so the amounts add up to the depth at every listed price.", "quantifier": "all prices, gaps and views", "why_tests_cant": "All gaps and books.", "anchors": ["x/dex/types/orderbook.go:FitPriceToTickGap", "x/dex/types/orderbook.go:MakeOrderBookPairResponse", "x/dex/keeper/grpc_query.go:OrderBooks"]}
{"id": "C50", "title": "Message validation guards", "statement": "A message accepted by ValidateBasic satisfies the bounds the handlers rely on (positive price, amount and offer between 100 and 1e40, offer covers ceil(price*amount), distinct denoms, non-negative lifespan, non-zero distinct pair ids), and the decision is exactly that conjunction.", "quantifier": "all messages", "why_tests_cant": "Decision logic over all messages.", "anchors": ["x/dex/types/msgs.go:ValidateBasic"]}
{"id": "C51", "title": "Initial pool coin supply is a power of ten at least the geometric size", "statement": "InitialPoolCoinSupply(x, y) = 10^c with 10^c squared strictly greater than x*y, and at most 1000 times x*y squared-root scale (10^(2c) <= 1000*x*y) for positive x and y.", "quantifier": "all positive amounts", "why_tests_cant": "All magnitudes.", "anchors": ["x/dex/amm/pool.go:InitialPoolCoinSupply"]}
{"id": "C52", "title": "Shared helpers: date ranges, DivMod, share value", "statement": "DateRangesOverlap holds iff some instant lies in both half-open ranges (for non-empty ranges), DateRangeIncludes is half-open membership, DivMod is Euclidean division for positive divisor, GetShareValue is the floor of amount*ratio; SafeMath runs the handler exactly on overflow panics carrying a string. A 32-bit number comes back from its big-endian bytes, which are ordered as the numbers; length-prefixed strings of at most 255 bytes delimit themselves (longer ones do not); test addresses have twenty bytes and are distinct for distinct numbers.", "quantifier": "all arguments", "why_tests_cant": "All arguments.", "anchors": ["types/utils.go:DateRangesOverlap", "types/utils.go:DateRangeIncludes", "types/utils.go:DivMod", "types/utils.go:GetShareValue", "types/utils.go:SafeMath", "types/utils.go:LengthPrefixString", "types/utils.go:BigEndianToUint32", "types/utils.go:TestAddress"]}
{"id": "C53", "title": "View matching removes the crossed part", "statement": "OrderBookView.Match leaves a view with no crossed depth: accumulated sums stay non-negative and non-decreasing, both sides are reduced by the same matched amount, and afterwards the best buy price is below the best sell price. (The last part is false for the code when both sides of the book match completely and exactly: then Match does nothing.)", "quantifier": "all views of order books", "why_tests_cant": "All books; used in every order book query.", "anchors": ["x/dex/amm/view.go:OrderBookView.Match"]}
{"id": "C54", "title": "A pool is never matched on both sides of one batch", "statement": "In one matching, a pool is not both buyer and seller, so the panic 'wrong order direction' is unreachable.", "quantifier": "all order books built from user orders and pool orders around each pool's price", "why_tests_cant": "Reachability of a chain-halting panic over all books.", "anchors": ["x/dex/keeper/swap.go:ApplyMatchResult"]}
{"id": "C55", "title": "A pool that is not depleted has a price", "statement": "Whenever IsDepleted is false for a pool with non-negative reserves, Price does not panic. (True for basic pools and for ranged pools with a base reserve; false for ranged pools with a tiny quote reserve, no base reserve and a very high maximum price, where the panic happens in the block-end matching of a pair without a last price.)", "quantifier": "all pools, reserves and price ranges", "why_tests_cant": "The panic needs extreme but valid parameters.", "anchors": ["x/dex/amm/pool.go:RangedPool.Price", "x/dex/amm/pool.go:RangedPool.IsDepleted", "x/dex/keeper/swap.go:Match"]}
{"id": "C56", "title": "Creating a ranged pool takes at most what was offered", "statement": "CreateRangedPool accepts amounts 0 <= ax <= x and 0 <= ay <= y whenever it succeeds. It takes all of one of the two coins; at the lower price bound all of the base coin and no quote coin, at the upper bound all of the quote coin and no base coin.", "quantifier": "all offered amounts, price ranges and initial prices", "why_tests_cant": "Several roundings to nearest in a row; whether they can exceed the offer is a question about all inputs.", "anchors": ["x/dex/amm/pool.go:CreateRangedPool"]}
{"id": "C57", "title": "Creating a pair or a pool charges exactly the fee and the deposit", "statement": "A successful CreatePair moves exactly the pair creation fee from the creator to the fee collector. A successful CreatePool or CreateRangedPool moves exactly the deposited (for ranged pools: accepted) coins to the reserve account of the new pool and the pool creation fee to the fee collector, mints at least the minimum initial supply of the new pool coin to the creator, gives the pool the next id, and changes no other balance or object; a basic pool is created only if the pair has no active basic pool.", "quantifier": "all reachable states and all creation messages", "why_tests_cant": "All states, balances and messages.", "anchors": ["x/dex/keeper/pair.go:CreatePair", "x/dex/keeper/pool.go:CreatePool", "x/dex/keeper/pool.go:CreateRangedPool"]}
{"id": "C58", "title": "Every balance is explained by the stored records", "statement": "Orders, cancellations, deposits, withdrawals and parameter changes move exactly the coins the stored records account for; a batch changes the balances of any account outside the exchange (not a pair escrow, a pool reserve or the dust collector) by exactly what the records of its orders and requests say; block starts change no balance; transfers move exactly their coins.", "quantifier": "all reachable states, all steps, all accounts and denoms", "why_tests_cant": "The accounting must hold for every combination of partial fills, refunds, expiries, failed and successful requests.", "anchors": ["x/dex/keeper/swap.go: PlaceOrder, CancelOrder, CancelAllOrders, ApplyMatchResult, FinishOrder", "x/dex/keeper/pool.go: Deposit, Withdraw, ExecuteDepositRequest, ExecuteWithdrawRequest", "x/dex/keeper/batch.go: ExecuteRequests"]}
{"id": "C59", "title": "Every fill in a batch respects the order's limit price and amount", "statement": "In a batch every stored order changes only by a sequence of fills of positive amount at prices within its limit: a buyer pays at most the limit price (rounded up), a seller gets at least the limit price (rounded down), open amounts only decrease and never become negative, and a seller pays exactly the base coin it sold.", "quantifier": "all histories with sane parameters, all orders and batches", "why_tests_cant": "Depends on all order books, pool states and parameter values, over arbitrarily long histories.", "anchors": ["x/dex/keeper/swap.go: ExecuteMatching, Match, ApplyMatchResult", "x/dex/amm/match.go: Match, FulfillOrder, FillOrder"]}
{"id": "C60", "title": "Only an account's own messages can lower its balances", "statement": "In any history without a message or transfer signed by an account, none of the account's balances decreases, whatever other accounts, parameter changes and blocks do.", "quantifier": "all histories from any state, all accounts and denoms", "why_tests_cant": "Ranges over all histories of adversarial messages of other accounts.", "anchors": ["x/dex/keeper/swap.go", "x/dex/keeper/pool.go", "x/dex/keeper/pair.go", "x/dex/keeper/batch.go"]}
{"id": "C61", "title": "The end of a block never halts the chain", "statement": "From every reachable state the end blocker completes: no panic and no failing transfer. FALSE for the code: (a) when the pro-rata distribution drops sell dust (C22), the pair's escrow account cannot pay the buyer and the end blocker panics; (b) a ranged pool whose price is within rounding of its maximum price makes the derivation of its translation divide by zero. Short histories of ordinary messages with default-style parameters reach both. It holds when no price is below one (last prices, sell limits, pool prices), escrows are covered and pools can be computed; the execution of deposit and withdraw requests never fails for computable pools and a fee rate of at most one.", "quantifier": "all histories of messages, transfers and blocks", "why_tests_cant": "Reachability of a panic in the end blocker over all histories; a halt needs a particular combination of pool depths and order sizes.", "anchors": ["x/dex/keeper/batch.go:ExecuteRequests", "x/dex/keeper/swap.go:ApplyMatchResult", "x/dex/amm/match.go:DistributeOrderAmountToOrders", "x/dex/module/abci.go:EndBlocker"]}
{"id": "C62", "title": "The registered invariants hold", "statement": "In every reachable state the module's own invariant checks (deposit coins escrow, pool coin escrow, remaining offer coin escrow, pool status, number of market-making orders) report no violation. The remaining offer coin check is FALSE in general (C36); the others hold for all histories. A failure of a check is reported exactly when the property it is named after is violated.", "quantifier": "all histories of messages, transfers and blocks", "why_tests_cant": "Safety invariants over unbounded histories.", "anchors": ["x/dex/keeper/invariants.go:AllInvariants", "x/dex/keeper/invariants.go:DepositCoinsEscrowInvariant", "x/dex/keeper/invariants.go:PoolCoinEscrowInvariant", "x/dex/keeper/invariants.go:RemainingOfferCoinEscrowInvariant", "x/dex/keeper/invariants.go:PoolStatusInvariant", "x/dex/keeper/invariants.go:NumMMOrdersInvariant"]}
{"id": "C63", "title": "Depositors and withdrawers are not short-changed", "statement": "A deposit mints at least the depositor's proportional share of pool coin (for the scarcer side) and takes no more than the proportional amount of either coin, up to one unit of rounding plus one part in 10^18; a withdrawal pays at least the proportional share of each reserve after the fee, up to one unit plus one part in 10^18.", "quantifier": "all reserves, pool coin supplies, offered amounts and fee rates", "why_tests_cant": "Rounding error bounds over unbounded integers.", "anchors": ["x/dex/amm/pool.go:Deposit", "x/dex/amm/pool.go:Withdraw"]}
{"id": "C64", "title": "A pool offers all of its liquidity on the curve", "statement": "At a price below its own a basic pool buys the greatest amount after which its reserves still imply at least that price, and at a price above its own it sells the greatest amount after which its reserves imply at most that price; the orders generated for a batch are the whole ladder: the first stands at the first tick where at least the minimum amount is traded, each is for everything the pool trades there, and they stop only at the end of the window or of the reserve.", "quantifier": "all pools, tick precisions and price windows", "why_tests_cant": "The ladder has unboundedly many rungs; maximality ranges over all amounts.", "anchors": ["x/dex/amm/pool.go:BuyAmountOver", "x/dex/amm/pool.go:SellAmountUnder", "x/dex/amm/pool.go:PoolBuyOrders", "x/dex/amm/order.go:PoolSellOrders"]}
{"id": "C65", "title": "Matching leaves no tradable pair behind", "statement": "After a matching no buy order and sell order that both still have something matchable at their own limit prices cross, neither after a regular batch at a last price nor after the first batch at the searched price, as long as the prices are at least one. For prices below one it is FALSE: a buy order that is worth nothing at the match price is skipped and can be left crossed.", "quantifier": "all order books, last prices and tick precisions", "why_tests_cant": "Liveness of a loop over unboundedly many ticks and orders, for every book.", "anchors": ["x/dex/amm/match.go:Match", "x/dex/amm/match.go:MatchAtSinglePrice", "x/dex/amm/match.go:FindMatchPrice"]}
{"id": "C66", "title": "A matching moves the price only towards the excess side", "statement": "Take the amounts matchable at the last price. If the buy orders above the last price ask for more than the sell orders up to it offer, a matching trades at no price below the last price; if the sell orders below it offer more than the buy orders from it on ask for, it trades at no price above it; otherwise every trade is at the last price and the match price is the last price. The second needs a last price of at least one: below one it is FALSE (a buy order worth nothing at the last price is skipped and then trades at its own, higher price although the price should fall).", "quantifier": "all order books and last prices", "why_tests_cant": "A statement about all fills of a two-stage algorithm over unboundedly many ticks and orders.", "anchors": ["x/dex/amm/match.go:Match", "x/dex/amm/match.go:PriceDirection", "x/dex/amm/match.go:MatchAtSinglePrice"]}
{"id": "C67", "title": "Genesis validation and import are exact", "statement": "Parameters and genesis states pass validation exactly if they satisfy a declarative consistency condition (positive and unique ids not above the last id, references to listed pairs and pools, batch ids not above the pair's, the right coins, positive amounts, ...). Importing a valid genesis state into an empty module stores exactly its records, in whatever order they are listed, and moves no coins; an invalid one is refused. The condition does not cover the last order id of a pair, so a valid genesis can contain an order that the next placed order silently replaces.", "quantifier": "all parameters, genesis states and bank states", "why_tests_cant": "An equivalence over all genesis states; the store content depends on all records and their order.", "anchors": ["x/dex/types/genesis.go:Validate", "x/dex/types/params.go:Validate", "x/dex/types/pair.go:Validate", "x/dex/types/pool.go:Validate", "x/dex/types/request.go:Validate", "x/dex/keeper/genesis.go:InitGenesis"]}
{"id": "C68", "title": "The byte store always says what the records say", "statement": "After every history, the key-value store contains exactly the entries for the current records, whatever led there: looking up a pair, pool, request, order or counter by id, a pair by its two denoms or a pool by its reserve account finds exactly that record; iterating over a kind, over the pools or orders of a pair, or over the requests and orders of an account visits exactly these records once, in id order; no index entry is left behind by a deletion and none is missing.", "quantifier": "all histories, all injective spellings of denoms and accounts, all ids below 2^64", "why_tests_cant": "An invariant linking primary entries and six secondary indexes over unbounded histories and all byte strings.", "anchors": ["x/dex/keeper/store.go", "x/dex/types/keys.go", "x/dex/keeper/batch.go:DeleteOutdatedRequests"]}
{"id": "C69", "title": "Queries return exactly the records asked for, page by page", "statement": "A query for one pair, request, order or counter returns it exactly if it exists (id zero is refused). Paging through pairs, requests of a pool, orders of a pair or orders of an account: each page is the window given by offset and limit (backwards if asked), a next key is returned exactly if more follows, the total is right if asked for, and following next keys always ends and yields every record from the offset on once and in order, whatever page sizes are used. (Offset plus limit must stay below 2^64-1: with the largest page size a filtering query stops at the first record not asked for.)", "quantifier": "all histories, page requests, page sizes and directions", "why_tests_cant": "Quantifies over all stores and all ways of cutting them into pages, with wrap-around at 2^64.", "anchors": ["x/dex/keeper/grpc_query.go:Pairs", "x/dex/keeper/grpc_query.go:DepositRequests", "x/dex/keeper/grpc_query.go:WithdrawRequests", "x/dex/keeper/grpc_query.go:Orders", "x/dex/keeper/grpc_query.go:OrdersByOrderer", "x/dex/keeper/grpc_query.go:NumMMOrders"]}
{"id": "C70", "title": "The pairs of a denom can be queried", "statement": "Paging through the pairs of one denom, or of two denoms, gives exactly the pairs in which the denom occurs, or which consist of the two denoms in any order. TRUE if the names of the two denoms of these pairs have together at most 252 bytes; FALSE beyond: one pair with denoms of up to 128 bytes and together 253 or more makes a counting query for one of them panic.", "quantifier": "all histories, denoms, spellings and page requests", "why_tests_cant": "Depends on the lengths of all denoms in the store.", "anchors": ["x/dex/keeper/grpc_query.go:Pairs", "x/dex/types/keys.go:ParsePairsByDenomsIndexKey"]}
{"id": "C71", "title": "Pool queries report reserves, supply and price", "statement": "A query for one pool by id, reserve account or pool coin denom reports that pool with the balances of its reserve account, the supply of its pool coin and, unless disabled, its price; paging through the pools (of one pair or all, enabled, disabled or both) reports exactly these pools. FALSE if the price of some live pool cannot be computed: then every page containing it fails.", "quantifier": "all histories, balances, filters and page requests", "why_tests_cant": "Quantifies over all pools, reserves and pages.", "anchors": ["x/dex/keeper/grpc_query.go:Pools", "x/dex/keeper/grpc_query.go:Pool", "x/dex/keeper/grpc_query.go:PoolByReserveAddress", "x/dex/keeper/grpc_query.go:PoolByPoolCoinDenom", "x/dex/types/util.go:NewPoolResponse"]}
{"id": "C72", "title": "Square roots of prices and reserves are exact to one unit and monotone", "statement": "The square root used by pools (DecApproxSqrt) of every non-negative number that can be stored (315 bits, 18 decimals) differs from the real square root by less than one unit of the 18th decimal, and on all pool prices a larger price never has a smaller root.", "quantifier": "all 18-decimal numbers in the range", "why_tests_cant": "A Newton iteration with rounded divisions and an iteration cap: convergence, error and monotonicity concern 2^315 inputs.", "anchors": ["types/utils.go:DecApproxSqrt", "x/dex/amm/pool.go:DeriveTranslation", "x/dex/amm/pool.go:CreateRangedPool"]}
{"id": "C73", "title": "Every ranged pool keeps a valid range and no pool ever has a negative price", "statement": "In every state the chain can reach, each ranged pool's stored price range lies within 10^-15..10^20, is nonempty and at least a thousandth wide (up to rounding), and the price computed from any pool's reserves, whatever trades, deposits, withdrawals and direct transfers did to them, is never negative.", "quantifier": "all histories of messages, transfers, parameter changes and blocks; all reserves", "why_tests_cant": "The price of a ranged pool goes through rounded square roots, quotients and differences that can change sign for extreme reserves; a negative price would make order generation misbehave. It must hold for every reserve pair a history can produce.", "anchors": ["x/dex/amm/pool.go:DeriveTranslation", "x/dex/amm/pool.go:ValidateRangedPoolParams", "x/dex/amm/pool.go:RangedPool.Price", "x/dex/keeper/pool.go:CreateRangedPool"]}
{"id": "C74", "title": "The library's number-size limits are not hit by pool and order arithmetic", "statement": "Decimals of 315 bits and integers of 256 bits suffice: square roots, pool prices, pool order amounts, order values, fills, deposits, withdrawals and the price direction of a book are computed without an overflow panic, and exactly as with unbounded numbers, for all amounts the module accepts. (False for the largest accepted orders and for huge reserves: a panic in the end blocker; proved for stated sizes.)", "quantifier": "all reserves, prices, amounts and order books within the stated sizes", "why_tests_cant": "An overflow needs extreme but accepted numbers at some intermediate step of a long computation; tests sample ordinary sizes.", "anchors": ["x/dex/amm/pool.go:BasicPool.Price", "x/dex/amm/pool.go:RangedPool", "x/dex/amm/pool.go:DeriveTranslation", "x/dex/amm/pool.go:Deposit", "x/dex/amm/pool.go:Withdraw", "x/dex/amm/util.go:OfferCoinAmount", "x/dex/amm/match.go:PriceDirection", "x/dex/amm/amm.go:MaxCoinAmount"]}
{"id": "C75", "title": "Every price the module stores is a tick", "statement": "As long as the tick precision parameter is not changed, the price of every stored order, the last price of every pair (including the first one, found by search, and those set by matchings with pool orders) and the ends of every ranged pool's range are ticks: prices with at most TickPrecision+1 significant digits. Hence the last price lies within its own price limits. A change of the precision can leave orders whose price is no tick.", "quantifier": "all histories of messages, parameter changes and blocks with sane parameters", "why_tests_cant": "The price comes out of loops over unboundedly many pool orders, a binary search and the match loop; the claim is about every history.", "anchors": ["x/dex/amm/pool.go:PoolBuyOrders", "x/dex/amm/pool.go:PoolSellOrders", "x/dex/amm/match.go:Match", "x/dex/amm/match.go:FindMatchPrice", "x/dex/keeper/swap.go:placeOrder", "x/dex/keeper/pool.go:ValidateMsgCreateRangedPool", "x/dex/types/params.go"]}
{"id": "C76", "title": "A batch leaves no crossing orders in the book of a pair", "statement": "When a batch ends, no unfinished buy order of a pair is priced at or above an unfinished sell order of the pair, provided the pair had a last price when the batch began, prices are above one (the lower price limit and the unfinished sell orders are at least one), and the buyer had the money for its open amount and can still pay for one unit at its limit price. A buy order none of which has traded always meets the conditions on the buyer. The same holds for the first batch of a pair, before it has a last price, if it has no active pool (with a fixed tick precision).", "quantifier": "all histories with sane parameters, all batches, all pairs, all sets of orders and pools", "why_tests_cant": "It ranges over every book and every set of pools a history can produce; dust rules, pro-rata distribution and pool orders interact, and below price one the claim is false (C65).", "anchors": ["x/dex/keeper/swap.go:ExecuteMatching", "x/dex/keeper/swap.go:Match", "x/dex/keeper/swap.go:ApplyMatchResult", "x/dex/amm/match.go:Match", "x/dex/keeper/batch.go:ExecuteRequests"]}
{"id": "C77", "title": "Stored records survive the store unchanged", "statement": "A pair, pool, deposit request, withdraw request, order, coin or last id whose numbers fit their fields is written as exactly the bytes the .proto file prescribes, as many as its size announces, and read back as the same record; two different records never have the same bytes. An amount of more than 256 bits or an expiry beyond the year 9999 breaks this.", "quantifier": "all records: all ids, strings, amounts of 256 bits, prices of 315 bits, heights, times, lists of coins of any length", "why_tests_cant": "A test can encode a few records; varint boundaries, empty strings, negative numbers, optional prices and lists combine without bound.", "anchors": ["x/dex/types/dex.pb.go:MarshalToSizedBuffer", "x/dex/types/dex.pb.go:Size", "x/dex/types/dex.pb.go:Unmarshal", "proto/defund/dex/dex.proto"]}
{"id": "C78", "title": "Transactions, parameters and genesis survive the wire unchanged", "statement": "Every transaction message of the module, the parameters and the genesis state, with numbers that fit their fields, is written as exactly the bytes the .proto file prescribes, as many as its size announces, and read back as the same message; durations of either sign and packed lists of pair ids included.", "quantifier": "all messages of the eleven transaction types, all parameters, all genesis states of any size", "why_tests_cant": "Nested lists of records and all integer boundaries; the sizes written before nested messages must agree with what is written at every depth.", "anchors": ["x/dex/types/tx.pb.go:MarshalToSizedBuffer", "x/dex/types/tx.pb.go:Unmarshal", "x/dex/types/params.pb.go", "x/dex/types/genesis.pb.go", "proto/defund/dex/tx.proto", "proto/defund/dex/genesis.proto"]}
{"id": "C79", "title": "Unknown fields are ignored and concatenated encodings merge", "statement": "When a message is read, a field with an unknown number is skipped whatever its wire type, nested groups included, and does not change the result wherever it stands; reading two encodings one after the other is reading the first and then the second into the result.", "quantifier": "all messages, all byte strings that decode, all unknown fields of any type, size and nesting depth", "why_tests_cant": "It ranges over all unknown fields, their positions and arbitrary nesting of groups.", "anchors": ["x/dex/types/dex.pb.go:skipDex", "x/dex/types/tx.pb.go:skipTx", "x/dex/types/dex.pb.go:Unmarshal"]}
{"id": "C80", "title": "The committed bytes determine the records", "statement": "Along every history, every value the keeper puts under a key can be marshalled as long as its numbers fit their fields, and what is under the key of a record is read back as that record; two histories that end with the same bytes in the store of the module end with the same last ids, pairs, pools, requests, orders and counters of market-making orders.", "quantifier": "all histories of store calls the keeper makes, all records whose numbers fit their fields, all pairs of histories", "why_tests_cant": "It compares all pairs of reachable states; a lost or conflated field in any record, or two kinds of records under one key, would break it for some pair of histories only.", "anchors": ["x/dex/keeper/store.go:SetPair", "x/dex/keeper/store.go:SetPool", "x/dex/keeper/store.go:SetDepositRequest", "x/dex/keeper/store.go:SetWithdrawRequest", "x/dex/keeper/store.go:SetOrder", "x/dex/keeper/store.go:SetNumMMOrders", "x/dex/types/dex.pb.go"]}
{"id": "C81", "title": "A transaction command sends exactly the message its arguments spell", "statement": "For every argument list, each transaction command (create-pair, create-pool, create-ranged-pool, deposit, withdraw, limit-order, market-order, mm-order, cancel-order) sends a message if and only if the number of arguments is right and each argument is readable; the message carries the sender, the value each argument spells in the field its usage line names, and the order lifespan of the flag.  Numbers are non-empty strings of decimal digits below 2^64, directions are buy, b, sell, s in any case.  None of these commands panics.", "quantifier": "all argument lists, senders, lifespans and readers of coins and decimals", "why_tests_cant": "It ranges over all texts a user can type; a swapped or dropped argument would show for some of them only.", "anchors": ["x/dex/client/cli/tx.go:NewCreatePairCmd", "x/dex/client/cli/tx.go:NewLimitOrderCmd", "x/dex/client/cli/tx.go:NewMarketOrderCmd", "x/dex/client/cli/tx.go:NewMMOrderCmd", "x/dex/client/cli/tx.go:NewCancelOrderCmd", "x/dex/client/cli/util.go:parseOrderDirection"]}
{"id": "C82", "title": "cancel-all-orders works with and without pair ids", "statement": "The cancel-all-orders command sends the message for the typed pair ids, in their order, and without an argument the message that cancels the orders in every pair, as its help text says.", "quantifier": "all senders and argument lists", "why_tests_cant": "It ranges over all lists of pair ids and all unreadable texts.", "anchors": ["x/dex/client/cli/tx.go:NewCancelAllOrdersCmd", "x/dex/types/msgs.go:NewMsgCancelAllOrders"]}
{"id": "C83", "title": "A query command asks for exactly what its arguments spell", "statement": "For every argument list and flags, each query command sends a request if and only if its arguments and flags are readable and complete (for pool: exactly one of the id, the pool coin denom and the reserve address), and the request names exactly what was typed.  No query command panics.", "quantifier": "all argument lists and flag values", "why_tests_cant": "It ranges over all texts; reading the wrong argument goes unnoticed whenever the two arguments are equal.", "anchors": ["x/dex/client/cli/query.go:NewQueryPoolCmd", "x/dex/client/cli/query.go:NewQueryDepositRequestCmd", "x/dex/client/cli/query.go:NewQueryWithdrawRequestCmd", "x/dex/client/cli/query.go:NewQueryOrdersCmd", "x/dex/client/cli/query.go:NewQueryOrderBooksCmd", "x/dex/client/cli/util.go:excConditions"]}
{"id": "C84", "title": "Markets are independent of each other", "statement": "Two histories that start with the same market of a pair (pair record, pools, orders, requests, coins in the pool reserves, pool coin supplies) and in which this market sees the same blocks, parameter changes and accepted messages end with the same market: same prices, fills, refunds and statuses of orders, same results of requests, same pools. Messages about other pairs and pools, transfers that do not go to the reserves of its pools and refused messages make no difference. Other markets can affect it only by halting the chain. Whether a message about the market (placing or canceling orders, creating pools, deposits, withdrawals) is accepted depends only on the market, the balances of its sender and the escrow account of the pair.", "quantifier": "all pairs, all pairs of reachable states with the same market, all histories of both in which the chain does not halt, with any other markets and messages in between", "why_tests_cant": "It compares every two histories; interference through the shared bank, the shared stores or the accumulators of a batch would show only for particular combinations of markets.", "anchors": ["x/dex/keeper/batch.go:ExecuteRequests", "x/dex/keeper/swap.go:ExecuteMatching", "x/dex/keeper/swap.go:ApplyMatchResult", "x/dex/keeper/swap.go:FinishOrder", "x/dex/keeper/pool.go:ExecuteDepositRequest", "x/dex/keeper/pool.go:ExecuteWithdrawRequest", "x/dex/types/util.go:QueueSendCoins"]}
{"id": "C85", "title": "A pair has a last price exactly from its first trade on", "statement": "As long as a pair has no last price, none of its orders has traded: each is open in full, keeps its whole offer and has received nothing, is no market order, and (with sane parameters and a fixed tick precision) has a supported tick as its price. So an order that has traded belongs to a pair with a last price. The last price changes only at the end of a block, and a pair that has a last price keeps having one.", "quantifier": "all reachable states and all histories in which the dust collector is no pool reserve; for the prices: sane parameters with a fixed tick precision", "why_tests_cant": "It is an invariant of every history of messages and batches; the first match of a pair goes through a different code path than all others.", "anchors": ["x/dex/keeper/swap.go:ExecuteMatching", "x/dex/keeper/swap.go:Match", "x/dex/keeper/swap.go:placeOrder", "x/dex/keeper/swap.go:ApplyMatchResult"]}
{"id": "C86", "title": "Events tell the truth", "statement": "A client that reads only the module's events knows every stored order and every stored deposit and withdraw request exactly: owner, coins, price, amounts, expiry, what is left after each match, and whether, how and with which amounts it ended. No order id is placed twice, no result comes twice or for an order not placed, and matches never contradict the placement; an order that is no longer stored was announced with exactly one result whose amounts are the sum of its matches. The events announcing pairs and pools are, in order, the stored pairs and pools, with the pool coins minted. A message leaves events exactly if it is accepted.", "quantifier": "all histories from genesis, all order and request ids, all messages in all reachable states", "why_tests_cant": "An indexer replays the log of the whole chain; one fill reported with the wrong amount, one result forgotten on one path (expiry during matching, dust, cancel-all) or emitted twice corrupts it for good, and which path an order takes depends on the whole history.", "anchors": ["x/dex/types/events.go", "x/dex/keeper/swap.go:placeOrder", "x/dex/keeper/swap.go:ApplyMatchResult", "x/dex/keeper/swap.go:FinishOrder", "x/dex/keeper/swap.go:CancelOrder", "x/dex/keeper/swap.go:CancelAllOrders", "x/dex/keeper/pool.go:FinishDepositRequest", "x/dex/keeper/pool.go:FinishWithdrawRequest", "x/dex/keeper/pool.go:CreatePool", "x/dex/keeper/pair.go:CreatePair"]}
{"id": "C87", "title": "The events are an account statement", "statement": "The balance of an account of any coin changes, in every step and over any history, by exactly what the events say: an order and a request take their coins from the owner, matches and results pay out, a pool pays and receives in its matches, receives what a deposit accepts and gives what is withdrawn, pending requests are with the global escrow. Left out are only the escrow accounts of pairs, creation fees and the coins put into a new pool, transfers of the bank module, and dust. The supply of a pool coin is what the events say was minted and burnt. Every event repeats the message that caused it (the order's offered coin splits into what was taken and what was refunded; a cancellation of all orders lists exactly the cancelable orders asked for), and results and matches come only with the end of a block or a cancellation. A match announced consists of trades of positive amounts at prices the owner of the order accepts; the matched amount is the base coin the buyer gets and the seller gives.", "quantifier": "all histories from genesis and all steps of them, all accounts, all coins, all events", "why_tests_cant": "One loop that pays without an event, pays twice, or announces another amount than it pays is visible only on the one path of the batch that does it; the sum must hold for every mixture of orders, pools, requests and cancellations.", "anchors": ["x/dex/keeper/swap.go:placeOrder,CancelOrder,CancelAllOrders,ApplyMatchResult,FinishOrder", "x/dex/keeper/pool.go:Deposit,Withdraw,FinishDepositRequest,FinishWithdrawRequest", "x/dex/types/events.go"]}
{"id": "C88", "title": "The module's accounts have different addresses", "statement": "The escrow addresses of all pairs, the reserve addresses of all pools, the global escrow, the default fee and dust collectors and the module account are pairwise different, unless the hash function maps two different byte strings, which are named, to the same hash: no pair can spend from another pair's escrow or a pool's reserve. All but the module account have 32 bytes, so that no ordinary 20-byte account is one of them. Addresses derived with the 32-byte type for different modules or names differ in the same sense; those of the 20-byte type do not (the module's name and the derivation name run together), and unknown types have the empty address.", "quantifier": "all pair ids and pool ids, all module and derivation names, all hash functions", "why_tests_cant": "Names are built from decimal numbers of unbounded length and fixed prefixes; that no two of 2^64 pairs and 2^64 pools share a derivation text cannot be enumerated.", "anchors": ["x/dex/types/pair.go:DeriveAddress,PairEscrowAddress", "x/dex/types/pool.go:PoolReserveAddress", "x/dex/types/params.go:GlobalEscrowAddress,DefaultFeeCollectorAddress,DefaultDustCollectorAddress"]}

{"id": "C01", "title": "v2: sale proceeds are split exactly", "statement": "When a sale goes through on marketplace v2, the bank payments made for it add up to exactly the sale price, in the sale denom: every fee is its share of the price rounded up, the seller gets the remainder, and if the rounded fees exceed the price the whole sale is rejected. Nothing is created, lost or left over.", "quantifier": "every sale price, every list of fee shares (any Decimal) and recipients", "why_tests_cant": "Rounding of several fees interacts; the sum being exact for every price and share combination cannot be enumerated.", "anchors": ["packages/sg-marketplace-common/src/sale.rs:NftSaleProcessor::build_payments", "packages/sg-marketplace-common/src/sale.rs:NftSaleProcessor::payout", "contracts/stargaze-marketplace-v2/src/helpers.rs:finalize_sale"]}
{"id": "C02", "title": "v2: finder rewards are carved out of the protocol fee", "statement": "For any configuration the contract accepts, the shares charged for protocol, maker finder and taker finder on a sale add up to exactly protocol_fee_bps/10000; a finder that is absent gets nothing; the computation never aborts. So naming finders never changes the total share taken from the seller.", "quantifier": "every accepted configuration (all bps values) and every combination of present/absent finders", "why_tests_cant": "Fixed-point multiplication truncates; exactness for all bps combinations is an arithmetic fact over a 10000^3 domain.", "anchors": ["contracts/stargaze-marketplace-v2/src/helpers.rs:divide_protocol_fees", "contracts/stargaze-marketplace-v2/src/state.rs:Config::save"]}
{"id": "C03", "title": "v2: open bids are always fully backed", "statement": "At every point of every execution (including inside nested calls made by a hostile NFT collection while its transfer is being processed), the bank balance of the marketplace in each denom is at least the sum of the prices of all open bids and collection bids in that denom plus all payments it still has to send.", "quantifier": "every history of transactions by any accounts, any hostile re-entrant collection contract, any admin reconfiguration, every denom", "why_tests_cant": "Unbounded histories and re-entrancy interleavings; a test exercises one history.", "anchors": ["contracts/stargaze-marketplace-v2/src/execute.rs:execute", "contracts/stargaze-marketplace-v2/src/helpers.rs:finalize_sale", "contracts/stargaze-marketplace-v2/src/state.rs:bids", "contracts/stargaze-marketplace-v2/src/state.rs:collection_bids"]}
{"id": "C04", "title": "v2: each call accounts for every coin", "statement": "For every successful call, coins attached + escrow before = coins paid out + escrow after, per denom, except that coins attached to AcceptBid, AcceptCollectionBid and the admin messages stay in the contract. In particular SetBid/UpdateBid/AcceptAsk (and collection variants) return everything above the price actually charged to the caller.", "quantifier": "every reachable state, caller, attached funds (any list of coins), message and denom", "why_tests_cant": "Needs exact accounting for all fund lists and all match outcomes.", "anchors": ["contracts/stargaze-marketplace-v2/src/execute.rs:execute_set_bid", "contracts/stargaze-marketplace-v2/src/execute.rs:execute_update_bid", "contracts/stargaze-marketplace-v2/src/execute.rs:execute_accept_ask", "contracts/stargaze-marketplace-v2/src/execute.rs:execute_set_collection_bid", "contracts/stargaze-marketplace-v2/src/execute.rs:execute_update_collection_bid"]}
{"id": "C05", "title": "v2: coins attached to AcceptBid are never trapped", "statement": "A seller accepting a bid or a collection bid never loses coins: any coins attached to AcceptBid/AcceptCollectionBid are either refunded or the call is rejected. (Expected to be violated: these handlers neither reject nor return attached coins.)", "quantifier": "every accepted AcceptBid / AcceptCollectionBid call and attached funds", "why_tests_cant": "Tests never attach funds to these calls; the claim ranges over all fund lists.", "anchors": ["contracts/stargaze-marketplace-v2/src/execute.rs:execute_accept_bid", "contracts/stargaze-marketplace-v2/src/execute.rs:execute_accept_collection_bid"]}
{"id": "C06", "title": "v2: a bidder can always get their money back", "statement": "In every reachable state, the creator of an open bid (or collection bid) can call RemoveBid (RemoveCollectionBid) with no funds; the call and its refund succeed, the bid disappears, and the creator's balance rises by exactly the bid price.", "quantifier": "every reachable state, every open bid/collection bid", "why_tests_cant": "Liveness in all reachable states; depends on solvency of the whole history.", "anchors": ["contracts/stargaze-marketplace-v2/src/execute.rs:execute_remove_bid", "contracts/stargaze-marketplace-v2/src/execute.rs:execute_remove_collection_bid"]}
{"id": "C07", "title": "v2: listed NFTs are in custody", "statement": "Between transactions, every NFT of a standards-conforming collection that has an open ask is owned by the marketplace contract.", "quantifier": "every history of transactions, every open ask on a conforming collection, with other collections hostile and re-entrant", "why_tests_cant": "Unbounded histories with re-entrancy.", "anchors": ["contracts/stargaze-marketplace-v2/src/execute.rs:execute_set_ask", "contracts/stargaze-marketplace-v2/src/execute.rs:execute_remove_ask", "contracts/stargaze-marketplace-v2/src/helpers.rs:finalize_sale"]}
{"id": "C08", "title": "v2: a seller can always get their NFT back", "statement": "In every reachable state the creator of an open ask on a conforming collection can call RemoveAsk; it succeeds and the NFT goes to the ask's recipient (or the creator when none is set).", "quantifier": "every reachable state, every open ask on a conforming collection", "why_tests_cant": "Liveness over all reachable states.", "anchors": ["contracts/stargaze-marketplace-v2/src/execute.rs:execute_remove_ask"]}
{"id": "C09", "title": "v2: orders only change with the owner's consent", "statement": "An open ask, bid or collection bid is changed or removed by a call only if the caller is its creator, or the call is a trade that fills that very order on its own terms. All other orders are left untouched by the call. (For asks: on collections that answer ownership queries truthfully; see C62 for the others.)", "quantifier": "every reachable state, every caller and message, every open order", "why_tests_cant": "Frame property over all other orders and all messages.", "anchors": ["contracts/stargaze-marketplace-v2/src/execute.rs:execute", "contracts/stargaze-marketplace-v2/src/helpers.rs:finalize_sale"]}
{"id": "C10", "title": "v2: configuration only changes by the admin", "statement": "The configuration, collection denoms and listing fees change only in a call sent by the contract admin; with no admin set nobody can change them.", "quantifier": "every state, caller and message", "why_tests_cant": "All callers and messages.", "anchors": ["contracts/stargaze-marketplace-v2/src/helpers.rs:only_contract_admin", "contracts/stargaze-marketplace-v2/src/execute.rs:execute_update_config", "contracts/stargaze-marketplace-v2/src/execute.rs:execute_update_collection_denom", "contracts/stargaze-marketplace-v2/src/execute.rs:execute_set_listing_fee", "contracts/stargaze-marketplace-v2/src/execute.rs:execute_remove_listing_fee"]}
{"id": "C11", "title": "v2: the order book is never crossed", "statement": "Between calls there is never an open ask together with an open bid on the same token (or an open collection bid on the same collection) in the same denom whose price is at or above the ask price.", "quantifier": "every history of calls, including admin denom changes", "why_tests_cant": "Global invariant over all pairs of orders after unbounded histories.", "anchors": ["contracts/stargaze-marketplace-v2/src/orders.rs:Ask::match_with_bid", "contracts/stargaze-marketplace-v2/src/orders.rs:Bid::match_with_ask", "contracts/stargaze-marketplace-v2/src/orders.rs:CollectionBid::match_with_ask"]}
{"id": "C12", "title": "v2: sellers are matched with the best bid", "statement": "When SetAsk, SellNft or UpdateAsk trades, the buyer chosen has the highest price among all open bids on that token and all open collection bids on that collection in the ask's denom, the seller is paid on that bid's price, and that price is at least the ask price; on equal price the token bid is preferred to the collection bid. If any eligible bid exists a trade happens (or the call fails).", "quantifier": "every reachable state and every ask", "why_tests_cant": "Ranges over all order books.", "anchors": ["contracts/stargaze-marketplace-v2/src/orders.rs:Ask::match_with_bid", "contracts/stargaze-marketplace-v2/src/query.rs:query_bids_by_token_price", "contracts/stargaze-marketplace-v2/src/query.rs:query_collection_bids_by_price"]}
{"id": "C13", "title": "v2: collection buyers get the cheapest listing", "statement": "When SetCollectionBid, BuyCollectionNft or UpdateCollectionBid trades, the NFT bought is one with the lowest ask price in that collection and denom, and the price charged is that ask price, never above the bid price.", "quantifier": "every reachable state and every collection bid", "why_tests_cant": "Ranges over all order books.", "anchors": ["contracts/stargaze-marketplace-v2/src/orders.rs:CollectionBid::match_with_ask", "contracts/stargaze-marketplace-v2/src/query.rs:query_asks_by_collection_denom"]}
{"id": "C14", "title": "v2: limit prices are respected", "statement": "In every sale the price charged is in the buyer's stated denom and at most the buyer's stated price; and it is in the seller's stated denom and at least the price stated by the seller in the ask being filled, or in the seller's own AcceptBid/AcceptCollectionBid call.", "quantifier": "every reachable state, every call that results in a sale", "why_tests_cant": "All states, orders and calls.", "anchors": ["contracts/stargaze-marketplace-v2/src/helpers.rs:finalize_sale", "contracts/stargaze-marketplace-v2/src/execute.rs:execute_accept_ask", "contracts/stargaze-marketplace-v2/src/execute.rs:execute_accept_bid", "contracts/stargaze-marketplace-v2/src/execute.rs:execute_accept_collection_bid"]}
{"id": "C15", "title": "v2: immediate-or-cancel calls leave nothing behind", "statement": "SellNft, BuySpecificNft and BuyCollectionNft either complete a sale in the same call or fail; they never leave a resting order.", "quantifier": "every state and input", "why_tests_cant": "All order books.", "anchors": ["contracts/stargaze-marketplace-v2/src/execute.rs:execute_set_ask", "contracts/stargaze-marketplace-v2/src/execute.rs:execute_set_bid", "contracts/stargaze-marketplace-v2/src/execute.rs:execute_set_collection_bid"]}
{"id": "C16", "title": "v2: order ids never clash", "statement": "Assuming the hash is collision free and no valid address is a proper prefix of another, distinct (collection, token) pairs have distinct ask ids, a newly created bid or collection bid never reuses the id of an open one, and there is at most one ask per token.", "quantifier": "all collections, tokens, heights and nonces; every history with fewer than 2^64 bids", "why_tests_cant": "Concatenation without separators makes this an injectivity statement over all byte strings.", "anchors": ["contracts/stargaze-marketplace-v2/src/helpers.rs:generate_id", "contracts/stargaze-marketplace-v2/src/orders.rs:Ask::new", "contracts/stargaze-marketplace-v2/src/orders.rs:Bid::new", "contracts/stargaze-marketplace-v2/src/orders.rs:CollectionBid::new"]}
{"id": "C17", "title": "v2: stored configuration is always sane", "statement": "In every reachable state protocol_fee_bps < 10000 and maker_reward_bps + taker_reward_bps < 10000.", "quantifier": "every history of calls", "why_tests_cant": "Invariant over unbounded histories.", "anchors": ["contracts/stargaze-marketplace-v2/src/state.rs:Config::save", "contracts/stargaze-marketplace-v2/src/instantiate.rs:instantiate", "contracts/stargaze-marketplace-v2/src/execute.rs:execute_update_config"]}
{"id": "C18", "title": "v2: open orders have positive prices and no call ever sends zero coins", "statement": "Every open order has a positive price, and every bank transfer the contract emits has a non-empty coin list with positive amounts (the chain rejects anything else, which would revert the trade).", "quantifier": "every reachable state and call", "why_tests_cant": "Zero-amount edge cases come from rounding of arbitrary prices and shares.", "anchors": ["contracts/stargaze-marketplace-v2/src/helpers.rs:only_valid_price", "packages/sg-marketplace-common/src/sale.rs:NftSaleProcessor::build_payments", "packages/sg-marketplace-common/src/coin.rs:transfer_coins"]}
{"id": "C19", "title": "v2: the listing fee is exact and forwarded", "statement": "A successful SetAsk or SellNft was paid with exactly one coin whose amount equals the listing fee configured for its denom, and that coin is sent in full to the fee manager.", "quantifier": "every state, attached funds and configuration", "why_tests_cant": "All fund lists.", "anchors": ["contracts/stargaze-marketplace-v2/src/execute.rs:execute_set_ask"]}
{"id": "C20", "title": "v2: nothing trades before trading starts", "statement": "While a collection reports a start_trading_time in the future, no SetAsk, SellNft, SetBid, BuySpecificNft, SetCollectionBid or BuyCollectionNft call on it succeeds.", "quantifier": "every state, block time and collection answer", "why_tests_cant": "All times and states.", "anchors": ["packages/sg-marketplace-common/src/nft.rs:only_tradable", "contracts/stargaze-marketplace-v2/src/execute.rs:execute_set_ask", "contracts/stargaze-marketplace-v2/src/execute.rs:execute_set_bid", "contracts/stargaze-marketplace-v2/src/execute.rs:execute_set_collection_bid"]}
{"id": "C21", "title": "v2: an untradable collection cannot change hands through the marketplace", "statement": "While a collection reports a start_trading_time in the future, no call results in a sale of its NFTs. (Expected to be violated: AcceptAsk, AcceptBid, AcceptCollectionBid, UpdateAsk, UpdateBid and UpdateCollectionBid do not check it.)", "quantifier": "every state and call", "why_tests_cant": "The gap only shows when the start time moves after orders were placed.", "anchors": ["packages/sg-marketplace-common/src/nft.rs:only_tradable", "contracts/stargaze-marketplace-v2/src/execute.rs:execute_accept_bid", "contracts/stargaze-marketplace-v2/src/execute.rs:execute_accept_ask"]}
{"id": "C22", "title": "v2: royalties are capped and go to the registered recipient", "statement": "In every sale the royalty paid is the smaller of the registered share and max_royalty_fee_bps, rounded up; it goes to the protocol-specific registry entry if present, else the default entry, else the collection's own royalty info; with none of these no royalty is charged.", "quantifier": "every sale, registry answer and collection answer", "why_tests_cant": "All shares and registry/collection answers.", "anchors": ["contracts/stargaze-marketplace-v2/src/helpers.rs:finalize_sale", "packages/sg-marketplace-common/src/royalties.rs:fetch_or_set_royalties", "packages/sg-marketplace-common/src/royalties.rs:fetch_royalty_entry"]}
{"id": "C23", "title": "v2: a sale is atomic and moves exactly one NFT", "statement": "Every call emits at most one NFT transfer. A sale emits exactly one, of the sold token to the buyer's recipient (or the buyer), and removes the filled ask and the filled bid; no other order changes.", "quantifier": "every reachable state and call", "why_tests_cant": "All states and calls.", "anchors": ["contracts/stargaze-marketplace-v2/src/helpers.rs:finalize_sale"]}
{"id": "C24", "title": "v2: paged price queries lose and repeat nothing", "statement": "Price-sorted queries (asks by collection/denom, bids by token, collection bids) return exactly the orders of that collection/token and denom within the bounds, sorted by price then id; walking the pages with the last returned (price, id) as exclusive bound visits every order exactly once, in either direction.", "quantifier": "every store, every page size, every number of pages", "why_tests_cant": "All stores and page sizes.", "anchors": ["contracts/stargaze-marketplace-v2/src/query.rs:query_asks_by_collection_denom", "contracts/stargaze-marketplace-v2/src/query.rs:query_bids_by_token_price", "contracts/stargaze-marketplace-v2/src/query.rs:query_collection_bids_by_price"]}
{"id": "C25", "title": "v2: bids on one token never show up under another", "statement": "Because token bids are indexed under collection + '/' + token id, the index key determines the (collection, token) pair for all valid collection addresses and arbitrary token ids (including token ids containing '/'), so a bid can only match an ask on its own token.", "quantifier": "all valid addresses and all token id strings", "why_tests_cant": "Injectivity over all strings.", "anchors": ["contracts/stargaze-marketplace-v2/src/helpers.rs:build_collection_token_index_str", "contracts/stargaze-marketplace-v2/src/state.rs:bids"]}
{"id": "C26", "title": "v2: the sender must own the NFT to list or sell it", "statement": "SetAsk, SellNft, AcceptBid and AcceptCollectionBid (without an existing ask) succeed only if the collection reports the sender as owner of the token. (Expected to be violated as stated: when the ownership query fails the check passes; for a conforming collection the transaction then still fails at the NFT transfer.)", "quantifier": "every state, caller, collection answer", "why_tests_cant": "The failing-query branch is only reachable with non-conforming collections.", "anchors": ["packages/sg-marketplace-common/src/nft.rs:only_owner", "contracts/stargaze-marketplace-v2/src/execute.rs:execute_set_ask", "contracts/stargaze-marketplace-v2/src/execute.rs:execute_accept_bid"]}
{"id": "C27", "title": "auction: escrowed bids are always fully backed", "statement": "At every point of every execution (including inside nested calls by hostile collections), the auction contract's balance in each denom is at least the sum of the current high bids in that denom plus all payments it still has to send.", "quantifier": "every history of executes, block hooks, parameter changes and re-entrant calls; every denom", "why_tests_cant": "Unbounded histories and re-entrancy.", "anchors": ["contracts/reserve-auction/src/execute.rs:execute_place_bid", "contracts/reserve-auction/src/helpers.rs:settle_auction", "contracts/reserve-auction/src/sudo.rs:sudo_end_block"]}
{"id": "C28", "title": "auction: bids strictly increase", "statement": "Each accepted bid is at least the reserve price if it is the first, and otherwise at least the previous high bid increased by min_bid_increment_percent rounded up; in particular it is strictly greater than the previous one, and the high bid of an auction never decreases over any history.", "quantifier": "every history, every increment setting accepted by the contract", "why_tests_cant": "Over all histories and percentages; rounding at small amounts.", "anchors": ["contracts/reserve-auction/src/state.rs:Auction::min_bid_coin", "contracts/reserve-auction/src/execute.rs:execute_place_bid"]}
{"id": "C29", "title": "auction: the outbid bidder is refunded in full in the same transaction", "statement": "A successful PlaceBid on an auction with a high bid sends exactly the previous high bid's coin to the previous bidder, and the new bidder's whole payment becomes the high bid.", "quantifier": "every reachable state and call", "why_tests_cant": "All states.", "anchors": ["contracts/reserve-auction/src/execute.rs:execute_place_bid"]}
{"id": "C30", "title": "auction: life-cycle fields stay consistent", "statement": "In every reachable state, an auction has a high bid iff it has an end time iff it has a first bid time; the high bid is in the reserve price's denom and positive. Hence the unwraps in bidding, settling and the end-block hook never panic.", "quantifier": "every history", "why_tests_cant": "Invariant over unbounded histories.", "anchors": ["contracts/reserve-auction/src/state.rs:Auction", "contracts/reserve-auction/src/execute.rs:execute_place_bid", "contracts/reserve-auction/src/helpers.rs:settle_auction", "contracts/reserve-auction/src/sudo.rs:sudo_end_block"]}
{"id": "C31", "title": "auction: NFTs under auction are in custody", "statement": "Between transactions every NFT of a conforming collection under auction is owned by the auction contract.", "quantifier": "every history including end-block batches that interleave hostile and conforming collections", "why_tests_cant": "Unbounded histories, re-entrancy inside batches.", "anchors": ["contracts/reserve-auction/src/execute.rs:execute_create_auction", "contracts/reserve-auction/src/execute.rs:execute_cancel_auction", "contracts/reserve-auction/src/helpers.rs:settle_auction"]}
{"id": "C32", "title": "auction: only the seller, and only before the first bid, may cancel or reprice", "statement": "CancelAuction and UpdateReservePrice succeed only for the seller and only while there is no bid; cancelling returns the NFT to the seller. While a bid stands, the seller, reserve price, duration, funds recipient of the auction never change.", "quantifier": "every history, caller and message", "why_tests_cant": "All callers, messages and histories.", "anchors": ["contracts/reserve-auction/src/execute.rs:execute_cancel_auction", "contracts/reserve-auction/src/execute.rs:execute_update_reserve_price"]}
{"id": "C33", "title": "auction: bidding and settling never overlap", "statement": "At no block time do both PlaceBid and SettleAuction succeed on the same auction; no settlement happens before the end time and no bid is accepted at or after the end second.", "quantifier": "every state and block time (nanosecond resolution)", "why_tests_cant": "Two different time resolutions are compared; all times.", "anchors": ["contracts/reserve-auction/src/execute.rs:execute_place_bid", "contracts/reserve-auction/src/helpers.rs:settle_auction"]}
{"id": "C34", "title": "auction: late bids extend, nothing shortens", "statement": "A bid never moves the end time earlier; after any non-first bid at least extend_duration seconds remain; the first bid sets the end to its time plus the duration. Postponement during a halt never moves the end time earlier.", "quantifier": "every reachable state and bid time", "why_tests_cant": "Seconds truncation over all times.", "anchors": ["contracts/reserve-auction/src/execute.rs:execute_place_bid", "contracts/reserve-auction/src/helpers.rs:settle_auction"]}
{"id": "C35", "title": "auction: settlement happens once and pays out exactly the high bid", "statement": "A settlement removes the auction, sends the NFT to the high bidder and pays out exactly the high bid; a settled auction cannot be settled again, cancelled or bid on.", "quantifier": "every reachable state", "why_tests_cant": "All states, with the fee-splitting library as an assumption.", "anchors": ["contracts/reserve-auction/src/helpers.rs:settle_auction", "contracts/reserve-auction/src/execute.rs:execute_settle_auction"]}
{"id": "C36", "title": "auction: an ended auction can be settled by anyone", "statement": "In every reachable state, an auction of a conforming collection whose end time has passed can be settled (or postponed if in a halt window) by any account: the call and all its messages succeed, provided the fee split itself succeeds.", "quantifier": "every reachable state, any caller", "why_tests_cant": "Liveness over all reachable states.", "anchors": ["contracts/reserve-auction/src/execute.rs:execute_settle_auction", "contracts/reserve-auction/src/helpers.rs:settle_auction"]}
{"id": "C37", "title": "auction: one end-block call settles at most the configured number, earliest first", "statement": "The end-block hook touches at most max_auctions_to_settle_per_block auctions, all of them due, and no untouched due auction ends (in seconds) before a touched one.", "quantifier": "every store, limit and block time", "why_tests_cant": "All stores and limits.", "anchors": ["contracts/reserve-auction/src/sudo.rs:sudo_end_block"]}
{"id": "C38", "title": "auction: the end-block hook never fails because of timing", "statement": "In every reachable state whose due auctions could each be settled individually or are not yet due, the end-block hook succeeds. (Expected to be violated: it selects auctions by whole seconds but settlement compares nanoseconds, so an auction ending later within the current second aborts the whole hook.)", "quantifier": "every reachable state and block time", "why_tests_cant": "Needs sub-second block times, which the tests do not use.", "anchors": ["contracts/reserve-auction/src/sudo.rs:sudo_end_block", "contracts/reserve-auction/src/helpers.rs:settle_auction"]}
{"id": "C39", "title": "auction: auctions ending in a detected halt are postponed, not settled", "statement": "If the begin-block hook detected a halt, no auction whose end time lies strictly inside the halt window (including its buffer) is settled; it is postponed instead. (Expected to be violated: the window is discarded by the next end-block that finds no due auction, even before the buffer has elapsed.)", "quantifier": "every history of blocks and calls", "why_tests_cant": "Depends on interleavings of blocks without due auctions.", "anchors": ["contracts/reserve-auction/src/state.rs:HaltManager::find_stale_halt_info", "contracts/reserve-auction/src/sudo.rs:sudo_begin_block", "contracts/reserve-auction/src/sudo.rs:sudo_end_block", "contracts/reserve-auction/src/helpers.rs:settle_auction"]}
{"id": "C40", "title": "auction: one bad auction does not block the others", "statement": "An auction that cannot be settled (its collection reports an unpayable royalty) does not prevent the end-block hook from settling other due auctions. (Expected to be violated: the first error aborts the batch.)", "quantifier": "every store and batch", "why_tests_cant": "Needs a hostile collection inside a batch.", "anchors": ["contracts/reserve-auction/src/sudo.rs:sudo_end_block", "contracts/reserve-auction/src/helpers.rs:settle_auction"]}
{"id": "C41", "title": "auction: configuration and durations stay within bounds", "statement": "In every reachable state 0 < min_bid_increment_percent < 1, min_duration > 0, extend_duration > 0, and every auction was created with a duration inside the bounds then in force and a reserve price at least the minimum then configured for an accepted denom.", "quantifier": "every history", "why_tests_cant": "Invariant over unbounded histories.", "anchors": ["contracts/reserve-auction/src/state.rs:Config::validate", "contracts/reserve-auction/src/execute.rs:execute_create_auction", "contracts/reserve-auction/src/helpers.rs:validate_reserve_price", "contracts/reserve-auction/src/sudo.rs:sudo_update_params"]}
{"id": "C42", "title": "auction: the creation fee takes exactly the fee", "statement": "CreateAuction charges exactly the configured fee: nothing above it stays in the contract. (Expected to be violated: any funds containing at least the fee are accepted and the excess is kept.)", "quantifier": "every attached funds list and configured fee", "why_tests_cant": "All fund lists.", "anchors": ["contracts/reserve-auction/src/execute.rs:execute_create_auction"]}
{"id": "C43", "title": "auction: calls on one auction do not affect the others", "statement": "CreateAuction, UpdateReservePrice, CancelAuction, PlaceBid and SettleAuction on one token leave every other auction unchanged; there is at most one auction per token.", "quantifier": "every state, message and other auction", "why_tests_cant": "Frame property over all other auctions.", "anchors": ["contracts/reserve-auction/src/execute.rs:execute", "contracts/reserve-auction/src/helpers.rs:only_no_auction"]}
{"id": "C44", "title": "v1: open bids are always fully backed", "statement": "At every point of every execution (including nested calls by hostile collections and hook contracts), the v1 marketplace's native balance is at least the sum of all open bids and collection bids plus all payments it still has to send.", "quantifier": "every history, every re-entrant collection or hook contract", "why_tests_cant": "Unbounded histories and re-entrancy.", "anchors": ["contracts/marketplace/src/execute.rs:execute_set_bid", "contracts/marketplace/src/execute.rs:execute_accept_bid", "contracts/marketplace/src/execute.rs:payout"]}
{"id": "C45", "title": "v1: a sale pays out the price up to one unit of dust", "statement": "When a v1 sale succeeds, network fee, finder's fee, royalty and seller payment add up to the price or the price minus one smallest unit, never more; with no royalty they add up exactly.", "quantifier": "every price, fee setting, finder's fee and royalty share", "why_tests_cant": "Two independent floors of arbitrary decimals.", "anchors": ["contracts/marketplace/src/execute.rs:payout"]}
{"id": "C46", "title": "v1: a sale pays out exactly the price", "statement": "When a v1 sale succeeds the payments add up to exactly the price. (Expected to be violated: floor(p*r) + floor(p*(1-r)) can be p-1, and the missing unit stays in the contract.)", "quantifier": "every price and royalty share", "why_tests_cant": "Needs a price/share pair whose product is not integral.", "anchors": ["contracts/marketplace/src/execute.rs:payout"]}
{"id": "C47", "title": "v1: a bidder can always withdraw", "statement": "In every reachable state the owner of an open bid or collection bid can remove it with RemoveBid / RemoveCollectionBid and receives exactly its price (active contract or not).", "quantifier": "every reachable state and open bid", "why_tests_cant": "Liveness over all reachable states.", "anchors": ["contracts/marketplace/src/execute.rs:execute_remove_bid", "contracts/marketplace/src/execute.rs:execute_remove_collection_bid"]}
{"id": "C48", "title": "v1: replacing a bid refunds the old one", "statement": "There is at most one bid per bidder and token (and one collection bid per bidder and collection); placing a new one refunds exactly the old price to the same bidder in the same transaction.", "quantifier": "every reachable state and call", "why_tests_cant": "All states.", "anchors": ["contracts/marketplace/src/execute.rs:execute_set_bid", "contracts/marketplace/src/execute.rs:execute_set_collection_bid"]}
{"id": "C49", "title": "v1: an NFT is sold only with its owner's consent and at the agreed price", "statement": "Every sale is either a call by the NFT's current owner accepting a specific bid at that bid's price, or a purchase at exactly the price of an active, unexpired fixed-price ask whose seller is the current owner.", "quantifier": "every state and call", "why_tests_cant": "All states, askers and bidders.", "anchors": ["contracts/marketplace/src/execute.rs:execute_set_bid", "contracts/marketplace/src/execute.rs:execute_accept_bid", "contracts/marketplace/src/execute.rs:execute_accept_collection_bid", "contracts/marketplace/src/execute.rs:finalize_sale"]}
{"id": "C50", "title": "v1: a reserved listing is sold only to the buyer it is reserved for", "statement": "While an ask is reserved for an address, no other address can place a bid on the token or buy it through the listing.", "quantifier": "every state and caller", "why_tests_cant": "All states and callers.", "anchors": ["contracts/marketplace/src/execute.rs:execute_set_bid"]}
{"id": "C51", "title": "v1: only the NFT owner manages a listing", "statement": "SetAsk, RemoveAsk, UpdateAskPrice, AcceptBid, AcceptCollectionBid and RejectBid succeed only when the caller owns the NFT.", "quantifier": "every state and caller", "why_tests_cant": "All states and callers.", "anchors": ["contracts/marketplace/src/execute.rs:only_owner", "contracts/marketplace/src/execute.rs:execute_set_ask", "contracts/marketplace/src/execute.rs:execute_update_ask_price", "contracts/marketplace/src/execute.rs:execute_remove_ask", "contracts/marketplace/src/execute.rs:execute_reject_bid"]}
{"id": "C52", "title": "v1: listing prices stay within the allowed range", "statement": "Every fixed-price ask has price between min_price (at listing time) and the fixed maximum. (Expected to be violated: UpdateAskPrice does not check the maximum.)", "quantifier": "every history", "why_tests_cant": "Needs the update path with a huge price.", "anchors": ["contracts/marketplace/src/execute.rs:execute_set_ask", "contracts/marketplace/src/execute.rs:execute_update_ask_price", "contracts/marketplace/src/execute.rs:price_validate"]}
{"id": "C53", "title": "v1: stale removal respects the bidder", "statement": "RemoveStaleBid / RemoveStaleCollectionBid succeed only for an operator and only after expiry plus the stale duration; bidder refund plus operator reward equals the bid price, and the reward is at most bid_removal_reward_bps of it.", "quantifier": "every state, time, caller", "why_tests_cant": "All times and prices.", "anchors": ["contracts/marketplace/src/execute.rs:execute_remove_stale_bid", "contracts/marketplace/src/execute.rs:execute_remove_stale_collection_bid"]}
{"id": "C54", "title": "v1: hook contracts cannot block trading", "statement": "For any behaviour of registered hook contracts, including always failing, the marketplace operation that triggers them has the same effect on orders, balances of the contract, and NFTs as with no hooks registered.", "quantifier": "every state, call and hook behaviour", "why_tests_cant": "All hook behaviours.", "anchors": ["contracts/marketplace/src/execute.rs:prepare_sale_hook", "contracts/marketplace/src/execute.rs:reply"]}
{"id": "C55", "title": "v1: parameters stay within bounds", "statement": "In every reachable state trading fee, maximum finder's fee and bid removal reward are at most 100%, and expiry ranges are ordered.", "quantifier": "every history of sudo calls", "why_tests_cant": "Invariant over histories.", "anchors": ["contracts/marketplace/src/sudo.rs:sudo_update_params", "contracts/marketplace/src/execute.rs:instantiate", "contracts/marketplace/src/helpers.rs:ExpiryRange::validate"]}
{"id": "C56", "title": "v1: finder's fees are bounded", "statement": "Every stored ask and bid carries a finder's fee of at most the maximum in force when it was placed, and a sale pays a finder at most that share of the price.", "quantifier": "every history", "why_tests_cant": "All histories.", "anchors": ["contracts/marketplace/src/execute.rs:execute_set_ask", "contracts/marketplace/src/execute.rs:execute_set_bid", "contracts/marketplace/src/execute.rs:payout"]}
{"id": "C57", "title": "v1: the asks query lists every ask", "statement": "Walking the Asks query of a collection from the beginning returns every stored ask of that collection once. (Expected to be violated: without start_after the query starts strictly after token id 0.)", "quantifier": "every store", "why_tests_cant": "Needs an ask on token 0.", "anchors": ["contracts/marketplace/src/query.rs:query_asks"]}
{"id": "C58", "title": "v1: the reverse asks query lists asks", "statement": "ReverseAsks without a start returns the asks of a collection from the highest token id down. (Expected to be violated: with no start_before nothing is returned.)", "quantifier": "every store", "why_tests_cant": "Any non-empty store.", "anchors": ["contracts/marketplace/src/query.rs:reverse_query_asks"]}
{"id": "C59", "title": "v1: price-sorted queries are sorted and complete", "statement": "AsksSortedByPrice, BidsSortedByPrice and their reverse variants return orders of the collection sorted by (price, key), without duplicates, and paging with the last (price, key) as start visits every order exactly once.", "quantifier": "every store and page size", "why_tests_cant": "All stores.", "anchors": ["contracts/marketplace/src/query.rs:query_asks_sorted_by_price", "contracts/marketplace/src/query.rs:query_bids_sorted_by_price"]}
{"id": "C60", "title": "common: validated address lists are sorted, duplicate free and complete", "statement": "map_validate returns each distinct input address exactly once, in ascending order, and fails iff some input is invalid.", "quantifier": "every list of strings", "why_tests_cant": "All lists.", "anchors": ["packages/sg-marketplace-common/src/address.rs:map_validate"]}
{"id": "C61", "title": "common: checked transfers never send zero", "statement": "checked_transfer_coins succeeds iff no coin in the list is zero and then emits exactly one bank transfer of exactly those coins.", "quantifier": "every coin list", "why_tests_cant": "All lists.", "anchors": ["packages/sg-marketplace-common/src/coin.rs:checked_transfer_coins"]}
{"id": "C62", "title": "v2: an ask survives other people's calls on any collection", "statement": "An open ask is removed or changed only by its creator or by a trade filling it, whatever its collection answers to ownership queries. (Expected to be violated: when the OwnerOf query fails, anybody can run SellNft or SetAsk on the listed token and the listing is deleted by the sale.)", "quantifier": "every reachable state, every call, every query answer", "why_tests_cant": "Needs a collection whose OwnerOf query fails for a listed token.", "anchors": ["contracts/stargaze-marketplace-v2/src/execute.rs:execute_set_ask", "packages/sg-marketplace-common/src/nft.rs:only_owner"]}
{"id": "C63", "title": "auction: a seller can cancel before the first bid", "statement": "Between transactions the seller of an auction of a conforming collection without bids can cancel it: the call and the transfer succeed, the auction is gone, nothing else changes and the seller owns the token again.", "quantifier": "every execution, every auction without bids", "why_tests_cant": "A liveness statement about all reachable states.", "anchors": ["contracts/reserve-auction/src/execute.rs:execute_cancel_auction"]}
{"id": "C64", "title": "auction: exact accounting of every call and hook", "statement": "For every denom, payments sent by a successful call (other than CreateAuction) plus the standing high bids afterwards equal the attached funds plus the standing high bids before; the same with no attached funds for every hook.", "quantifier": "every reachable state, call, hook and denom", "why_tests_cant": "Equality over all states and batches.", "anchors": ["contracts/reserve-auction/src/execute.rs:execute", "contracts/reserve-auction/src/sudo.rs:sudo", "contracts/reserve-auction/src/helpers.rs:settle_auction"]}
{"id": "C65", "title": "auction: nobody bids on their own auction", "statement": "In every reachable state the high bidder of an auction is neither its seller nor the contract, and the contract is never a seller.", "quantifier": "every reachable state", "why_tests_cant": "Invariant over all histories.", "anchors": ["contracts/reserve-auction/src/execute.rs:execute_place_bid", "contracts/reserve-auction/src/execute.rs:execute_create_auction"]}
{"id": "C66", "title": "auction: a sufficient limit settles everything", "statement": "If max_auctions_to_settle_per_block is at least the number of due auctions and there is no halt window, a successful end-block call settles every ended auction. (Expected to be violated: the u64 limit is cast with `as usize`, which truncates to 32 bits on wasm; a limit of 2^32 settles nothing.)", "quantifier": "every reachable state, every limit", "why_tests_cant": "Needs a limit above 32 bits, native tests run on 64-bit.", "anchors": ["contracts/reserve-auction/src/sudo.rs:sudo_end_block"]}
{"id": "C67", "title": "v1: the bids query pages through all bids of a token", "statement": "Bids of a token are listed by bidder, and asking again with the last bidder as start_after reaches every bid once. (Expected to be violated: the raw bytes of start_after are compared with whole primary keys, which begin with a length, so every later page is empty.)", "quantifier": "every reachable state, token and page size", "why_tests_cant": "Needs more bids on a token than one page holds.", "anchors": ["contracts/marketplace/src/query.rs:query_bids"]}
{"id": "C68", "title": "v1: the collections query lists each collection once", "statement": "Paging through Collections lists every collection with an ask exactly once. (Expected to be violated: it lists one entry per ask.)", "quantifier": "every reachable state and page size", "why_tests_cant": "Needs two asks of one collection and a look at all pages.", "anchors": ["contracts/marketplace/src/query.rs:query_collections"]}
{"id": "C69", "title": "v1: order listings of an account are sorted and complete", "statement": "AsksBySeller, BidsByBidder, CollectionBidsByBidder and the two expiry-sorted queries list exactly the orders of that account (for asks: the active ones unless inactive ones are asked for) in index order, without duplicates, and paging from the beginning or from any offset (for the expiry-sorted ones: of a stored bid) reaches each later order exactly once.", "quantifier": "every reachable state, account, offset and page size", "why_tests_cant": "All stores and offsets.", "anchors": ["contracts/marketplace/src/query.rs:query_asks_by_seller", "contracts/marketplace/src/query.rs:query_bids_by_bidder", "contracts/marketplace/src/query.rs:query_bids_by_bidder_sorted_by_expiry", "contracts/marketplace/src/query.rs:query_collection_bids_by_bidder", "contracts/marketplace/src/query.rs:query_collection_bids_by_bidder_sorted_by_expiry"]}
{"id": "C70", "title": "v1: paging by expiry survives removal of the last bid seen", "statement": "If the last bid of a page is withdrawn, the next page of BidsByBidderSortedByExpiration after it holds only bids that come after it. (Expected to be violated: a missing offset bid restarts the listing.)", "quantifier": "every reachable state, bid and page size", "why_tests_cant": "Needs a removal between two pages.", "anchors": ["contracts/marketplace/src/query.rs:query_bids_by_bidder_sorted_by_expiry"]}
{"id": "C71", "title": "v1: AskCount counts the asks", "statement": "AskCount is the number of stored asks of the collection, active or not (below 2^32).", "quantifier": "every reachable state and collection", "why_tests_cant": "All stores.", "anchors": ["contracts/marketplace/src/query.rs:query_ask_count"]}
{"id": "C72", "title": "v1: lookups return the order with that key", "statement": "Ask, Bid and CollectionBid return an order iff it is stored and has exactly the collection, token and bidder asked for; so each NFT has at most one ask, each bidder at most one bid per NFT and one bid per collection.", "quantifier": "every reachable state and key", "why_tests_cant": "Invariant over all histories.", "anchors": ["contracts/marketplace/src/query.rs:query_ask", "contracts/marketplace/src/query.rs:query_bid", "contracts/marketplace/src/query.rs:query_collection_bid"]}
{"id": "C73", "title": "v1: encoded index keys sort by price, expiry, collection and token", "statement": "The byte order of encoded index keys is the numeric order of prices, seconds and token ids and the length-then-bytes order of collections, component by component.", "quantifier": "every pair of keys with u32 tokens, u128 prices, u64 seconds and addresses below 65536 bytes", "why_tests_cant": "All pairs of keys.", "anchors": ["contracts/marketplace/src/state.rs:asks", "contracts/marketplace/src/state.rs:bids", "contracts/marketplace/src/state.rs:collection_bids"]}
{"id": "C74", "title": "v2: prices are positive and in the collection's denom", "statement": "Every successful call that places or changes an order (SetAsk, SellNft, UpdateAsk, SetBid, BuySpecificNft, UpdateBid, SetCollectionBid, BuyCollectionNft, UpdateCollectionBid) names a positive price in the denom set for that collection, or in the default denom if none is set.", "quantifier": "every state, caller and order call", "why_tests_cant": "All nine calls, all configurations.", "anchors": ["contracts/stargaze-marketplace-v2/src/helpers.rs:only_valid_price", "contracts/stargaze-marketplace-v2/src/execute.rs:execute"]}
{"id": "C75", "title": "v2: orders are recorded as given, for the caller", "statement": "A successful order call either trades or records exactly the order described in the call: caller as creator, collection, token and details as given (for updates: creator, collection and token as before); every other order stays as it was.", "quantifier": "every reachable state and order call", "why_tests_cant": "All calls and states, including frame conditions on all other orders.", "anchors": ["contracts/stargaze-marketplace-v2/src/execute.rs:execute_set_ask", "contracts/stargaze-marketplace-v2/src/execute.rs:execute_set_bid", "contracts/stargaze-marketplace-v2/src/execute.rs:execute_set_collection_bid", "contracts/stargaze-marketplace-v2/src/execute.rs:execute_update_ask", "contracts/stargaze-marketplace-v2/src/execute.rs:execute_update_bid", "contracts/stargaze-marketplace-v2/src/execute.rs:execute_update_collection_bid"]}
{"id": "C76", "title": "v2: admin calls do what they say and nothing else", "statement": "UpdateConfig stores exactly the given, valid configuration; UpdateCollectionDenom changes the denom of that collection only; SetListingFee and RemoveListingFee change the fee of that denom only; instantiation stores the given configuration and no orders. Configurations with shares above 100% or bad addresses are refused.", "quantifier": "every state and admin call", "why_tests_cant": "All configurations and states.", "anchors": ["contracts/stargaze-marketplace-v2/src/execute.rs:execute_update_config", "contracts/stargaze-marketplace-v2/src/execute.rs:execute_update_collection_denom", "contracts/stargaze-marketplace-v2/src/execute.rs:execute_set_listing_fee", "contracts/stargaze-marketplace-v2/src/execute.rs:execute_remove_listing_fee", "contracts/stargaze-marketplace-v2/src/instantiate.rs:instantiate"]}
{"id": "C77", "title": "v2: an accepted call completes", "statement": "If a call by an account that owns the attached funds is accepted and any NFT it moves is on a conforming collection and held by, or approved for, the contract, all emitted messages execute: the transaction cannot fail later for lack of contract funds. Balances and ownership change exactly as the messages say.", "quantifier": "every execution, every call", "why_tests_cant": "Needs solvency in all reachable states.", "anchors": ["contracts/stargaze-marketplace-v2/src/execute.rs:execute", "contracts/stargaze-marketplace-v2/src/orders.rs:finalize_sale"]}
{"id": "C78", "title": "v2: an open listing can be bought", "statement": "Between transactions, whoever owns the price of an open listing on a conforming collection can buy it with AcceptAsk, provided the royalty registry answers and the fees and royalty leave a split of the price: the call is accepted and completes, the recipient owns the token, the listing is gone, the split has been paid out and the buyer has paid exactly the price.", "quantifier": "every execution, listing and buyer", "why_tests_cant": "Liveness in all reachable states.", "anchors": ["contracts/stargaze-marketplace-v2/src/execute.rs:execute_accept_ask", "contracts/stargaze-marketplace-v2/src/orders.rs:finalize_sale"]}
{"id": "C79", "title": "v2: an open bid can be sold into", "statement": "Between transactions, the holder of a token on a conforming collection - with an own listing of it or with the token approved - can sell it into any open bid on it or on its collection with AcceptBid / AcceptCollectionBid at or above their limit, if the sale can be settled: the call completes, the bidder's recipient owns the token, the bid is gone and its price has been paid out.", "quantifier": "every execution, bid and holder", "why_tests_cant": "Liveness in all reachable states.", "anchors": ["contracts/stargaze-marketplace-v2/src/execute.rs:execute_accept_bid", "contracts/stargaze-marketplace-v2/src/execute.rs:execute_accept_collection_bid"]}
{"id": "C80", "title": "v2: orders can be placed", "statement": "Between transactions, a bid or collection bid with valid parameters below all matching listings, paid for, is accepted under a new id, and the bidder has paid exactly its price. The owner of an approved token on a conforming collection can list it above all matching bids for the listing fee; the contract then holds the token and the fee manager has the fee.", "quantifier": "every execution with fewer than 2^64 orders so far", "why_tests_cant": "Liveness in all reachable states; id freshness over all histories.", "anchors": ["contracts/stargaze-marketplace-v2/src/execute.rs:execute_set_bid", "contracts/stargaze-marketplace-v2/src/execute.rs:execute_set_collection_bid", "contracts/stargaze-marketplace-v2/src/execute.rs:execute_set_ask"]}
{"id": "C81", "title": "auction: creation checks and record", "statement": "CreateAuction succeeds only for the reported owner of the token, with the contract reported as approved, trading started, no auction for the token, a duration within the bounds and a reserve price at or above the minimum of an accepted denom. It records exactly the requested auction for the caller, without bids; nothing else in the store changes.", "quantifier": "every state, caller and creation call", "why_tests_cant": "All states and parameters, with frame condition.", "anchors": ["contracts/reserve-auction/src/execute.rs:execute_create_auction", "contracts/reserve-auction/src/helpers.rs:only_no_auction", "contracts/reserve-auction/src/helpers.rs:validate_reserve_price"]}
{"id": "C82", "title": "auction: governance calls do what they say", "statement": "UpdateParams sets exactly the given parameters; SetMinReservePrices adds exactly the given, new denoms and refuses to overwrite; UnsetMinReservePrices removes exactly the given, existing denoms; instantiation stores the given configuration and prices and no auctions. No call by an account changes the configuration, the prices or the record of halts.", "quantifier": "every state and governance call", "why_tests_cant": "All lists of denoms and parameter combinations.", "anchors": ["contracts/reserve-auction/src/sudo.rs:sudo_update_params", "contracts/reserve-auction/src/sudo.rs:sudo_set_min_reserve_prices", "contracts/reserve-auction/src/sudo.rs:sudo_unset_min_reserve_prices", "contracts/reserve-auction/src/instantiate.rs:instantiate"]}
{"id": "C83", "title": "auction: AuctionsBySeller and MinReservePrices page completely", "statement": "AuctionsBySeller lists exactly the stored auctions of the seller, once each, by collection (shorter addresses first) and token, and MinReservePrices all denoms; both in either direction, and passing the last key as start_after continues without gaps or repetitions. Auction returns the stored auction of the token, Config and HaltManager what is stored.", "quantifier": "every reachable state, direction, offset and page size", "why_tests_cant": "All stores, offsets and page sizes.", "anchors": ["contracts/reserve-auction/src/query.rs:query_auctions_by_seller", "contracts/reserve-auction/src/query.rs:query_min_reserve_prices", "contracts/reserve-auction/src/query.rs:query_auction"]}
{"id": "C84", "title": "auction: AuctionsByEndTime pages completely", "statement": "Paging through AuctionsByEndTime with a given end_time, passing the key of the last auction as start_after, lists every auction with a bid that ends at or after (descending: before) that second once, in order of end. (Expected to be violated: start_after only applies within the second end_time, so the next page repeats auctions unless end_time is advanced too.)", "quantifier": "every reachable state, end time, direction and page size", "why_tests_cant": "Needs several pages and different end times.", "anchors": ["contracts/reserve-auction/src/query.rs:query_auctions_by_end_time"]}
{"id": "C85", "title": "auction: encoded keys sort by end time, collection and token", "statement": "The byte order of encoded primary keys and of entries of the end-time index is the order by end second, then collection (length, then bytes), then token, which the queries and the end-block hook rely on.", "quantifier": "every pair of keys with addresses below 65536 bytes and u64 seconds", "why_tests_cant": "All pairs of keys.", "anchors": ["contracts/reserve-auction/src/state.rs:auctions", "contracts/reserve-auction/src/sudo.rs:sudo_end_block", "contracts/reserve-auction/src/query.rs:query_auctions_by_end_time"]}
{"id": "C86", "title": "auction: an accepted call or hook completes", "statement": "If a call by an account that owns the attached funds is accepted, and NFTs to be moved are on conforming collections (for a creation: approved), all emitted messages execute; likewise for the end-block hook and all settlements of its batch. Balances and ownership change exactly as the messages say.", "quantifier": "every execution, every call and hook", "why_tests_cant": "Needs solvency and custody in all reachable states.", "anchors": ["contracts/reserve-auction/src/execute.rs:execute", "contracts/reserve-auction/src/sudo.rs:sudo_end_block", "contracts/reserve-auction/src/helpers.rs:settle_auction"]}
{"id": "C87", "title": "auction: a sufficient bid is accepted", "statement": "Before an auction has ended, any account other than its seller that attaches a positive amount of the auction's denom of at least the reserve price (first bid) or the high bid raised by the increment is accepted, the call completes and the account is the high bidder.", "quantifier": "every execution, auction, bidder and amount below 2^128 whose end time fits u64", "why_tests_cant": "Liveness in all reachable states.", "anchors": ["contracts/reserve-auction/src/execute.rs:execute_place_bid", "contracts/reserve-auction/src/state.rs:Auction::min_bid_coin"]}
{"id": "C88", "title": "auction: an owner can create an auction", "statement": "The owner of an approved token on a conforming collection that trades and has no auction can create one with any reserve price and duration within the bounds by attaching exactly the fee; the call completes and the contract holds the token.", "quantifier": "every execution, token and owner", "why_tests_cant": "Liveness in all reachable states.", "anchors": ["contracts/reserve-auction/src/execute.rs:execute_create_auction"]}
{"id": "C89", "title": "v1: listing checks and record", "statement": "SetAsk succeeds only for the reported owner of the token, with the marketplace reported as approved, trading started, the expiry in the configured range, a native price between the minimum and the maximum, a reservation at most for somebody else and only at a fixed price, and exactly the listing fee attached, which is burnt. It records exactly the requested listing for the caller; nothing else in the store changes and nothing else is paid.", "quantifier": "every state, caller and SetAsk call", "why_tests_cant": "All states and parameters, with frame condition.", "anchors": ["contracts/marketplace/src/execute.rs:execute_set_ask"]}
{"id": "C90", "title": "v1: every other change of a listing", "statement": "UpdateAskPrice changes only the price, by the owner, while the listing is active and unexpired; RemoveAsk removes the listing of the caller's token; SyncAsk sets only the active flag to the reported approval and RemoveStaleAsk removes only listings whose token is gone, unapproved or expired, both for operators. A listing changes in no other way except a sale, which removes it.", "quantifier": "every state, caller and call", "why_tests_cant": "All states and calls, with frame condition.", "anchors": ["contracts/marketplace/src/execute.rs:execute_update_ask_price", "contracts/marketplace/src/execute.rs:execute_remove_ask", "contracts/marketplace/src/execute.rs:execute_sync_ask", "contracts/marketplace/src/execute.rs:execute_remove_stale_ask"]}
{"id": "C91", "title": "v1: bid checks and record", "statement": "A bid or purchase pays at least the minimum price, does not name the caller as finder, and respects a listing: active, unexpired, not reserved for another; at a fixed price it never exceeds the price and buys exactly at it; at an auction it reaches the price and never buys. Without a listing only SetBid works. A call that does not buy records exactly the given bid for the caller, with an expiry in the range, and pays only the refund of the bid it replaces. Likewise for collection bids.", "quantifier": "every state, caller and bidding call", "why_tests_cant": "All combinations of listing, bid and parameters.", "anchors": ["contracts/marketplace/src/execute.rs:execute_set_bid", "contracts/marketplace/src/execute.rs:execute_set_collection_bid"]}
{"id": "C92", "title": "v1: a bid that goes away without sale is refunded in full", "statement": "Whenever a standing bid or collection bid is changed or removed by a call other than its acceptance or its removal as stale, its full price is paid back to its bidder, first of all payments.", "quantifier": "every reachable state and call", "why_tests_cant": "All call types that touch bids, including replacement during a purchase.", "anchors": ["contracts/marketplace/src/execute.rs:execute_set_bid", "contracts/marketplace/src/execute.rs:execute_remove_bid", "contracts/marketplace/src/execute.rs:execute_reject_bid", "contracts/marketplace/src/execute.rs:execute_set_collection_bid", "contracts/marketplace/src/execute.rs:execute_remove_collection_bid"]}
{"id": "C93", "title": "v1: every call balances", "statement": "For every call, the sum of open bids afterwards plus everything paid out equals the sum before plus the attached coins, except that a sale may leave at most one unit (rounding of the royalty). Only the native denom is ever received or paid.", "quantifier": "every state and call", "why_tests_cant": "Conservation for all states and amounts.", "anchors": ["contracts/marketplace/src/execute.rs:execute", "contracts/marketplace/src/execute.rs:payout"]}
{"id": "C94", "title": "v1: hook contracts are told exactly what happened", "statement": "The notifications emitted by a call are one per registered contract of the kind, for the created, changed or deleted listing, the created or deleted bid, or the sale, with its collection, token, price and parties. Nothing else is notified: not collection bids (no hook can be registered), nor the removal of a listing or bid by a sale or a replacement.", "quantifier": "every reachable state and call, any list of hooks", "why_tests_cant": "All calls and hook lists.", "anchors": ["contracts/marketplace/src/execute.rs:prepare_ask_hook", "contracts/marketplace/src/execute.rs:prepare_bid_hook", "contracts/marketplace/src/execute.rs:prepare_sale_hook", "contracts/marketplace/src/execute.rs:prepare_collection_bid_hook"]}
{"id": "C95", "title": "v1: BuyNow buys or fails", "statement": "A successful BuyNow or BuyForToken hands the token to the caller or named recipient. (Expected to be violated: with less than the price, or a listing of type auction, the call succeeds and stores a bid, locking the coins.)", "quantifier": "every reachable state and BuyNow / BuyForToken call", "why_tests_cant": "Depends on the listing in the store at execution time.", "anchors": ["contracts/marketplace/src/execute.rs:execute_set_bid"]}
{"id": "C96", "title": "v1: deployment and governance do what they say", "statement": "Instantiation stores the given parameters, the given operators once each, at most the given sale hook and no orders, and rejects fees above 100%, unordered ranges and a stale duration in blocks. Each operator or hook message adds or removes exactly that address in its list, which never contains an address twice, and changes nothing else; for valid addresses it fails only on duplicates and absentees. UpdateParams changes no order and no hook and enforces the same bounds.", "quantifier": "every reachable state and governance message", "why_tests_cant": "Invariant over all histories of governance messages.", "anchors": ["contracts/marketplace/src/execute.rs:instantiate", "contracts/marketplace/src/sudo.rs:sudo_update_params", "contracts/marketplace/src/sudo.rs:sudo_add_operator", "contracts/marketplace/src/sudo.rs:sudo_remove_operator", "contracts/marketplace/src/sudo.rs:sudo_add_ask_hook"]}
{"id": "C97", "title": "v1: UpdateParams can replace the operators", "statement": "A successful UpdateParams that names operators makes exactly those the operators. (Expected to be violated: the field is ignored, without error.)", "quantifier": "every reachable state and UpdateParams message", "why_tests_cant": "All messages and states.", "anchors": ["contracts/marketplace/src/sudo.rs:sudo_update_params"]}
{"id": "C98", "title": "v1: an accepted call completes", "statement": "If the contract accepts a call and the tokens handed over are on conforming collections that approve the marketplace, all emitted messages execute, and balances and ownership change exactly as the messages say. (Expected to be violated: a royalty, proceeds, or operator's reward that rounds to zero makes a bank send of zero coins, which the bank refuses; removing a small stale bid can thus never succeed.)", "quantifier": "every execution and call", "why_tests_cant": "Needs solvency in all reachable states and the rounding of every amount.", "anchors": ["contracts/marketplace/src/execute.rs:payout", "contracts/marketplace/src/execute.rs:execute_remove_stale_bid", "contracts/marketplace/src/execute.rs:execute_remove_stale_collection_bid"]}
{"id": "C99", "title": "v1: an open listing can be bought", "statement": "Whoever owns the price of an active, unexpired fixed-price listing open to them can buy it with SetBid, BuyNow or BuyForToken, if the seller still owns the token, the collection conforms and approves the marketplace, the price is not below the current minimum and no part of the split rounds to zero: the call completes, the listing is gone and the recipient owns the token.", "quantifier": "every execution, listing and buyer", "why_tests_cant": "Liveness in all reachable states.", "anchors": ["contracts/marketplace/src/execute.rs:execute_set_bid", "contracts/marketplace/src/execute.rs:finalize_sale"]}
{"id": "C100", "title": "v1: the owner can accept a standing bid", "statement": "The owner of a token on a conforming collection that trades and approves the marketplace can accept any unexpired bid for it or for its collection of which no part of the split rounds to zero: the call completes and the bidder owns the token.", "quantifier": "every execution, bid and owner", "why_tests_cant": "Liveness in all reachable states.", "anchors": ["contracts/marketplace/src/execute.rs:execute_accept_bid", "contracts/marketplace/src/execute.rs:execute_accept_collection_bid"]}
{"id": "C101", "title": "v1: orders can be placed", "statement": "The owner of an approved token that trades can list it for exactly the listing fee with any price, expiry and finder's fee within the bounds; anybody can bid for a token (below a fixed-price listing, at or above an auction listing, or without listing) or for a collection. The calls complete and the order is in the store.", "quantifier": "every execution, account and order", "why_tests_cant": "Liveness in all reachable states.", "anchors": ["contracts/marketplace/src/execute.rs:execute_set_ask", "contracts/marketplace/src/execute.rs:execute_set_bid", "contracts/marketplace/src/execute.rs:execute_set_collection_bid"]}
{"id": "C102", "title": "v1: owners can withdraw and reprice listings and reject bids", "statement": "The owner of a token on a conforming collection can, without attaching coins, remove the token's listing in whatever condition it is, change the price of an active unexpired listing to anything from the minimum up, and reject any bid on the token: the calls are accepted and complete, and a rejected bidder has the price back.", "quantifier": "every execution, owner, listing and bid", "why_tests_cant": "Liveness in all reachable states.", "anchors": ["contracts/marketplace/src/execute.rs:execute_remove_ask", "contracts/marketplace/src/execute.rs:execute_update_ask_price", "contracts/marketplace/src/execute.rs:execute_reject_bid"]}
{"id": "C103", "title": "v1: operators can clean up", "statement": "An operator can set the activity of a listing to the reported approval if it differs, remove a listing that has expired or whose token is reported gone or unapproved, and remove a bid or collection bid once the stale duration has passed since its expiry if the reward is at least one unit and less than the bid: the calls complete, operator and bidder have their shares.", "quantifier": "every execution, operator and order", "why_tests_cant": "Liveness in all reachable states.", "anchors": ["contracts/marketplace/src/execute.rs:execute_sync_ask", "contracts/marketplace/src/execute.rs:execute_remove_stale_ask", "contracts/marketplace/src/execute.rs:execute_remove_stale_bid", "contracts/marketplace/src/execute.rs:execute_remove_stale_collection_bid"]}
{"id": "C104", "title": "v2: records and indexes are one consistent store", "statement": "In the contract's flat key-value store, for every history of calls: reading a record's key gives exactly the record last saved under that id and nothing once it is removed; every record has exactly one entry in each of its indexes, at its current index fields, and there is no other entry; no two items, maps or indexes use the same key; so each listing that walks an index and follows its entries returns the records that the current orders of that collection, denom or creator have, in the stated order, and never fails on a dangling entry. Every accepted call can be carried out on the store unless a key component has 65536 bytes or more.", "quantifier": "every history of instantiate, migrate and calls; every listing and option", "why_tests_cant": "All sequences of saves, updates and removals on all keys; disjointness of the byte encodings of all keys.", "anchors": ["contracts/stargaze-marketplace-v2/src/state.rs:asks", "contracts/stargaze-marketplace-v2/src/state.rs:bids", "contracts/stargaze-marketplace-v2/src/state.rs:collection_bids", "contracts/stargaze-marketplace-v2/src/state.rs:AskIndices", "contracts/stargaze-marketplace-v2/src/state.rs:BidIndices", "contracts/stargaze-marketplace-v2/src/state.rs:CollectionBidIndices", "contracts/stargaze-marketplace-v2/src/query.rs:query_asks_by_collection_denom"]}
{"id": "C105", "title": "auction: records and indexes are one consistent store", "statement": "In the auction contract's flat key-value store, for every history of calls, governance messages and block hooks: reading an auction's key gives exactly the auction last saved and nothing once it is settled or cancelled; every auction has exactly one entry in the seller index and one in the end time index, at its current end second (u64::MAX before the first bid), and there is no other entry; no two items, maps or indexes use the same key; so the listings by seller and end time, the list of minimum prices, and the end-block hook's choice of due auctions read exactly the current auctions, in order, and never fail on a dangling entry. Every accepted call can be carried out on the store unless an address has 65536 bytes or more.", "quantifier": "every history of instantiate, migrate, calls and hooks; every listing and option", "why_tests_cant": "All sequences of saves, updates and removals on all keys; disjointness of the byte encodings of all keys.", "anchors": ["contracts/reserve-auction/src/state.rs:auctions", "contracts/reserve-auction/src/state.rs:AuctionIndexes", "contracts/reserve-auction/src/query.rs:query_auctions_by_end_time", "contracts/reserve-auction/src/query.rs:query_auctions_by_seller", "contracts/reserve-auction/src/sudo.rs:sudo_end_block"]}
{"id": "C106", "title": "v1: records and indexes are one consistent store", "statement": "In the v1 marketplace's flat key-value store, for every history of calls, governance messages and migrations: reading the key of a listing, bid or collection bid gives exactly the record last saved there and nothing once it is removed; every record has exactly one entry in each of its indexes, at its current fields, and there is no other entry; no two items, maps or indexes use the same key; so every paged query (by collection, price, seller, bidder, token, expiry; ascending or descending; the list of collections; the count of listings) reads exactly the current orders, in order, and never fails on a dangling entry. Every accepted call can be carried out on the store unless an address has 65536 bytes or more.", "quantifier": "every history of instantiate, migrate, calls and sudo messages; every query and option", "why_tests_cant": "All sequences of saves, updates and removals on all keys; disjointness of the byte encodings of all keys.", "anchors": ["contracts/marketplace/src/state.rs:asks", "contracts/marketplace/src/state.rs:bids", "contracts/marketplace/src/state.rs:collection_bids", "contracts/marketplace/src/state.rs:AskIndicies", "contracts/marketplace/src/state.rs:BidIndicies", "contracts/marketplace/src/state.rs:CollectionBidIndicies", "contracts/marketplace/src/query.rs:query_collections", "contracts/marketplace/src/query.rs:query_bids_by_bidder_sorted_by_expiry"]}
{"id": "C107", "title": "v2: the events tell the whole order book", "statement": "Someone who sees nothing but the events of the contract's responses, from instantiation on, and applies them in order (set- opens an order, update- replaces its terms, remove- closes it, finalize-sale closes the ask and the bid it names, the configuration events replace configuration, collection denom and listing fee) knows at every moment the configuration, the collection denoms, the listing fees and every open ask, bid and collection bid with creator, collection, token, price, recipient and finder, and nothing else. No event is missing, malformed, or contradicts what the earlier ones said. This needs that denoms do not start with a digit, because prices are written as amount followed by denom.", "quantifier": "every history of instantiate and calls", "why_tests_cant": "All sequences of calls, including those that match, update and refund; the claim is about the accumulation of all events.", "anchors": ["contracts/stargaze-marketplace-v2/src/events.rs:AskEvent", "contracts/stargaze-marketplace-v2/src/events.rs:BidEvent", "contracts/stargaze-marketplace-v2/src/events.rs:CollectionBidEvent", "contracts/stargaze-marketplace-v2/src/events.rs:ConfigEvent", "contracts/stargaze-marketplace-v2/src/events.rs:CollectionDenomEvent", "contracts/stargaze-marketplace-v2/src/events.rs:ListingFeeEvent", "contracts/stargaze-marketplace-v2/src/orders.rs:get_event_attrs", "contracts/stargaze-marketplace-v2/src/helpers.rs:finalize_sale", "contracts/stargaze-marketplace-v2/src/instantiate.rs:instantiate"]}
{"id": "C108", "title": "v2: the sale event reports what the sale does", "statement": "Every successful call emits exactly one event, and this is finalize-sale if and only if the call trades. Its collection, token_id and nft_recipient are those of the only NFT transfer among the messages; each of protocol, maker, taker, royalty and seller gives the amount of the bank send made for that purpose and is absent if there is none; these amounts add up to price, in the denom the event names; protocol goes to the fee manager, seller to seller_recipient, royalty to the recipient of the collection's royalty, maker to the finder named by the order that was there first.", "quantifier": "every reachable state and successful call", "why_tests_cant": "All ways in which a call can trade, all fee settings and all combinations of finders and royalties.", "anchors": ["contracts/stargaze-marketplace-v2/src/helpers.rs:finalize_sale", "packages/sg-marketplace-common/src/sale.rs:NftSaleProcessor::build_payments", "contracts/stargaze-marketplace-v2/src/execute.rs:execute_set_ask", "contracts/stargaze-marketplace-v2/src/execute.rs:execute_accept_collection_bid"]}
{"id": "C109", "title": "auction: the events tell every open auction", "statement": "Someone who sees nothing but the events of the contract's responses, from instantiation on, and applies them in order knows at every moment the configuration except for the maximum duration, the minimum reserve prices, and for every open auction seller, reserve price, funds recipient, end time and standing high bid, and nothing else. No event is missing, malformed, or contradicts what the earlier ones said: place-bid names the seller, says first_bid exactly if there was no bid, and names the previous bidder and bid; settle-auction names the standing bid. This needs that denoms do not start with a digit, because prices are written as amount followed by denom. (Not known: the duration of an auction and hence, before the first bid, when it will end.)", "quantifier": "every history of instantiate, calls and hooks", "why_tests_cant": "All sequences of calls and blocks; the claim is about the accumulation of all events, including those of batches of settlements.", "anchors": ["contracts/reserve-auction/src/execute.rs:execute_create_auction", "contracts/reserve-auction/src/execute.rs:execute_update_reserve_price", "contracts/reserve-auction/src/execute.rs:execute_cancel_auction", "contracts/reserve-auction/src/execute.rs:execute_place_bid", "contracts/reserve-auction/src/helpers.rs:settle_auction", "contracts/reserve-auction/src/sudo.rs:sudo_update_params", "contracts/reserve-auction/src/sudo.rs:sudo_set_min_reserve_prices", "contracts/reserve-auction/src/sudo.rs:sudo_unset_min_reserve_prices", "contracts/reserve-auction/src/instantiate.rs:instantiate"]}
{"id": "C110", "title": "auction: events agree with the messages", "statement": "Every successful call emits exactly one event, of the type that goes with the call and naming its token. The place-bid event names the bidder, the coins paid, and a previous bid exactly if one is refunded, in which case the only message sends that amount to that bidder; its auction_end_time is the stored end. The settle-auction events of a SettleAuction call or of the end-block hook announce exactly the transfers of tokens (token and winner, in order), and their amounts add up to exactly the money paid out in each denom.", "quantifier": "every reachable state, successful call and end of block", "why_tests_cant": "All batches of settlements and all states.", "anchors": ["contracts/reserve-auction/src/execute.rs:execute_place_bid", "contracts/reserve-auction/src/helpers.rs:settle_auction", "contracts/reserve-auction/src/sudo.rs:sudo_end_block"]}
{"id": "C111", "title": "v1: the events tell every open order", "statement": "Someone who sees nothing but the events of the v1 marketplace's responses, from instantiation on, and applies them in order, each for what its type says (set- places an order, update- changes it, remove-, accept- and reject- close it, finalize-sale closes the listing), knows at every moment every open listing (sale type, seller, price, reservation, expiry, activity), every open bid and collection bid (price, expiry), the operators and the hooks, and nothing else. No event is missing, malformed, or contradicts what the earlier ones said. (Violated: a purchase emits set-bid like a bid that stays open. It does hold for someone who looks at all events of a response and does not take a set-bid next to a finalize-sale for an open bid.)", "quantifier": "every history of calls, sudo messages and failed hooks", "why_tests_cant": "All sequences of calls; the claim is about the accumulation of all events.", "anchors": ["contracts/marketplace/src/execute.rs:execute_set_ask", "contracts/marketplace/src/execute.rs:execute_set_bid", "contracts/marketplace/src/execute.rs:finalize_sale", "contracts/marketplace/src/execute.rs:execute_accept_bid", "contracts/marketplace/src/execute.rs:execute_sync_ask", "contracts/marketplace/src/execute.rs:execute_remove_stale_ask", "contracts/marketplace/src/execute.rs:reply", "contracts/marketplace/src/sudo.rs:sudo"]}
{"id": "C112", "title": "v1: sale events report what the sale does", "statement": "Every successful call ends its events with one of the type that goes with the call; before it come a finalize-sale, preceded by a royalty-payout if a royalty is paid, if and only if the call hands over a token, and nothing otherwise. The finalize-sale names exactly the token, seller, buyer, price and recipient of the terms the listing or the accepted bid had and of the transfer that is made; the royalty-payout names the recipient and the exact amount (price times share, rounded down) that is sent, and appears exactly if the collection reports a share other than zero.", "quantifier": "every reachable state and successful call", "why_tests_cant": "All ways in which a call can trade, all royalties.", "anchors": ["contracts/marketplace/src/execute.rs:finalize_sale", "contracts/marketplace/src/execute.rs:payout"]}
{"id": "C113", "title": "v1: refunds and rewards follow from the events", "statement": "Someone who knows the open orders can tell from the events of a call alone who is paid back what: set-bid and set-collection-bid refund the bidder's former bid, remove-bid, reject-bid and remove-collection-bid refund the bid named, the removal of a stale bid splits it between the bidder and the operator by the reward named. The bank sends of the response are exactly these, in order, followed by those of the sale if the events contain one, among which are the royalties announced.", "quantifier": "every reachable state and successful call", "why_tests_cant": "All calls in all states.", "anchors": ["contracts/marketplace/src/execute.rs:execute_set_bid", "contracts/marketplace/src/execute.rs:execute_remove_bid", "contracts/marketplace/src/execute.rs:execute_reject_bid", "contracts/marketplace/src/execute.rs:execute_set_collection_bid", "contracts/marketplace/src/execute.rs:execute_remove_stale_bid", "contracts/marketplace/src/execute.rs:execute_remove_stale_collection_bid"]}
{"id": "C114", "title": "v1: the last event says who asked for what", "statement": "The last event of every successful call names the token or collection of the message, the bidder (the caller, or the one the message names) and, where there is one, the seller and the kind of sale; the removal by an operator names the operator, while the removal by the owner does not; sync-ask says whether the approval is there now; remove-stale-ask says truly whether the listing had expired, has an owner and has an approval; a royalty-payout names the collection of the call. When a hook contract fails, the reply succeeds and reports the failure of a hook of exactly that kind, with its error.", "quantifier": "every reachable state, successful call and failing hook", "why_tests_cant": "All calls, all answers of the collection contract.", "anchors": ["contracts/marketplace/src/execute.rs:execute_set_ask", "contracts/marketplace/src/execute.rs:execute_set_bid", "contracts/marketplace/src/execute.rs:execute_sync_ask", "contracts/marketplace/src/execute.rs:execute_remove_stale_ask", "contracts/marketplace/src/execute.rs:execute_remove_stale_bid", "contracts/marketplace/src/execute.rs:payout", "contracts/marketplace/src/execute.rs:reply"]}
{"id": "C115", "title": "auction: the events tell halts and explain postponements", "statement": "Someone who reads the responses one after the other knows at every moment the chain halts that the contract remembers. With that and with what the earlier events told, every later event can be predicted: an auction is settled or postponed only when its known end has passed; it is postponed if that end lies strictly inside a known halt and settled otherwise; a postponed auction ends the known postponement after the block. A halt is announced at the start of a block exactly if the time since the last block has reached the threshold; it starts at the last block and ends the buffer after this one.", "quantifier": "every history of instantiate, calls and hooks", "why_tests_cant": "All sequences of blocks, halts and auctions; forgetting a halt depends on the first auction due in each block.", "anchors": ["contracts/reserve-auction/src/sudo.rs:sudo_begin_block", "contracts/reserve-auction/src/sudo.rs:sudo_end_block", "contracts/reserve-auction/src/helpers.rs:settle_auction", "contracts/reserve-auction/src/state.rs:HaltManager"]}
{"id": "C116", "title": "v1: migrations only go forward", "statement": "Code of the v1 marketplace takes over a deployment exactly if the recorded contract name is its own and the recorded version parses and is not later than its own. However often a deployment is migrated, its contract name stays and its version never decreases; at every moment the record names the contract and the version of the code that runs; and migrations change nothing else: every state of a deployment with migrations is one that can be reached without.", "quantifier": "every life of a deployment with calls, sudo messages and migrations, every version order", "why_tests_cant": "All sequences of calls and migrations and all version strings.", "anchors": ["contracts/marketplace/src/execute.rs:migrate", "contracts/marketplace/src/execute.rs:instantiate"]}
{"id": "C117", "title": "v2, auction: migrations only go forward", "statement": "Code of marketplace v2 (of the reserve auction) takes over a deployment only if the recorded contract name is its own and the recorded version is not later than its own. (Violated: migrate checks nothing, it takes over later versions and other contracts. What holds: the record is always exactly name and version of the code that runs and the first event of the deployment names the code deployed, and migrations change nothing else.)", "quantifier": "every life of a deployment with calls, hooks and migrations", "why_tests_cant": "All sequences of calls and migrations.", "anchors": ["contracts/stargaze-marketplace-v2/src/migrate.rs:migrate", "contracts/reserve-auction/src/migrate.rs:migrate", "contracts/stargaze-marketplace-v2/src/instantiate.rs:instantiate", "contracts/reserve-auction/src/instantiate.rs:instantiate"]}
{"id": "C118", "title": "v2: the account holds exactly the bids", "statement": "At every moment of every history of the contract's account (also in the middle of a call, with messages still pending) it holds, in every denom, exactly what was there at instantiation, plus the coins of the open bids and collection bids, plus what the pending messages pay, plus coins that others sent to it without a call, plus coins attached to AcceptBid and AcceptCollectionBid calls (C05) \u2014 not one unit more or less. In particular, if nobody sends coins that way, it holds exactly the open bids.", "quantifier": "every history of fewer than 2^64-1 steps, with re-entrant calls, and every denom", "why_tests_cant": "The claim is about the sum over all calls of a history; a test sees the account after a few.", "anchors": ["contracts/stargaze-marketplace-v2/src/execute.rs:execute_set_bid", "contracts/stargaze-marketplace-v2/src/execute.rs:execute_update_bid", "contracts/stargaze-marketplace-v2/src/execute.rs:execute_remove_bid", "contracts/stargaze-marketplace-v2/src/execute.rs:execute_accept_ask", "contracts/stargaze-marketplace-v2/src/execute.rs:execute_set_collection_bid", "contracts/stargaze-marketplace-v2/src/execute.rs:execute_accept_collection_bid", "contracts/stargaze-marketplace-v2/src/helpers.rs:finalize_sale"]}
{"id": "C119", "title": "auction: the account holds exactly the high bids", "statement": "At every moment of every history of the contract's account (also in the middle of a call) it holds, in every denom, exactly what was there at instantiation, plus the standing high bids, plus what the pending messages pay, plus coins that others sent to it without a call, plus what creators of auctions attached beyond the creation fee (C42).", "quantifier": "every history of calls, hooks and re-entrant calls, every denom", "why_tests_cant": "The claim is about the sum over all calls and blocks of a history.", "anchors": ["contracts/reserve-auction/src/execute.rs:execute_create_auction", "contracts/reserve-auction/src/execute.rs:execute_place_bid", "contracts/reserve-auction/src/helpers.rs:settle_auction", "contracts/reserve-auction/src/sudo.rs:sudo_end_block"]}
{"id": "C120", "title": "v1: the account holds exactly the bids and the dust of sales", "statement": "At every moment of every history of the contract's account (also in the middle of a call) it holds, in the native denom, what was there at instantiation, plus the open bids and collection bids, plus what the pending messages pay, plus coins that others sent to it without a call, plus an amount that is at most the number of sales so far (C46: a sale can leave one unit). In every other denom it holds what was there and what others sent without a call.", "quantifier": "every history of calls, sudo messages and re-entrant calls", "why_tests_cant": "The claim is about the sum over all calls of a history, with all roundings.", "anchors": ["contracts/marketplace/src/execute.rs:execute_set_bid", "contracts/marketplace/src/execute.rs:execute_remove_bid", "contracts/marketplace/src/execute.rs:execute_remove_stale_bid", "contracts/marketplace/src/execute.rs:execute_set_collection_bid", "contracts/marketplace/src/execute.rs:payout"]}
{"id": "C121", "title": "auction: an ended auction waits its turn and no longer", "statement": "If the end-block hook may settle at least L auctions whenever it runs, then the number of auctions that had ended by the second of some time T and still wait falls by L with every run, whatever calls, governance changes, bids and new auctions happen in between. Hence an auction waits for at most (number of auctions that ended in or before its second)/L runs: then it is sold or has been postponed to a later second. Later auctions cannot get ahead of it, and settling calls by others only shorten the wait.", "quantifier": "every history after the second of T, every L", "why_tests_cant": "The claim is about all histories of any number of blocks with interleaved calls.", "anchors": ["contracts/reserve-auction/src/sudo.rs:sudo_end_block", "contracts/reserve-auction/src/helpers.rs:settle_auction", "contracts/reserve-auction/src/execute.rs:execute_place_bid", "contracts/reserve-auction/src/state.rs:AuctionIndexes"]}
{"id": "C122", "title": "v2: collections do not affect each other", "statement": "A call about a collection (naming it, or naming one of its asks or bids) does exactly what it would do in a marketplace in which no other collection has an order or a denom of its own: it fails with the same error or it succeeds with the same messages and the same changes of the collection's orders; and a successful call leaves the orders and the denom of every other collection and the configuration as they are. Hence the orders of a collection after any history are those of a history in which only the calls about this collection and the configuration happened; other collections show only in the counter that ids of bids are made of.", "quantifier": "every reachable state, every call (failing ones included), every history, every pair of collections", "why_tests_cant": "All states: order ids, indexes and prefixes of keys of all collections live in the same store, and a collision or a range that reaches too far shows only for particular addresses and token ids.", "anchors": ["contracts/stargaze-marketplace-v2/src/execute.rs:execute", "contracts/stargaze-marketplace-v2/src/state.rs:AskIndices", "contracts/stargaze-marketplace-v2/src/state.rs:BidIndices", "contracts/stargaze-marketplace-v2/src/state.rs:CollectionBidIndices", "contracts/stargaze-marketplace-v2/src/orders.rs:Ask", "contracts/stargaze-marketplace-v2/src/orders.rs:Bid", "contracts/stargaze-marketplace-v2/src/orders.rs:CollectionBid"]}
{"id": "C123", "title": "auction: a call depends on its own auction only; the end-block hook only settles", "statement": "A call about a token does exactly what it would do if no other token were under auction: the same error, or the same messages and the same change of the auction; all other auctions, the configuration and the halts stay. Governance and the begin-block hook do not look at auctions. The end-block hook does exactly what SettleAuction calls (by anyone) for some different tokens would do one after the other in the same block, with the same messages in the same order; besides it may forget the oldest halt. Hence the auctions of a token after any history are those of a history in which no other token was ever put up.", "quantifier": "every reachable state, every call (failing ones included), every hook, every history", "why_tests_cant": "All states and histories; the hook works on a list fetched before the first settlement.", "anchors": ["contracts/reserve-auction/src/execute.rs:execute", "contracts/reserve-auction/src/sudo.rs:sudo_end_block", "contracts/reserve-auction/src/helpers.rs:settle_auction", "contracts/reserve-auction/src/state.rs:auctions"]}
{"id": "C124", "title": "v1: a call depends on and changes only the orders it names", "statement": "The outcome of a call (its error or its messages and changes) depends on no other orders than the listing of the token it names, the bid of the caller or of the bidder it names, and the collection bid of the caller or of the bidder it names; all others could be removed without a difference. A successful call changes no other order. Hence the orders of a collection after any history are those of a history in which only calls about this collection happened. Governance does not depend on orders.", "quantifier": "every state, every call (failing ones included), every set of orders, every history", "why_tests_cant": "All states and all sets of other orders.", "anchors": ["contracts/marketplace/src/execute.rs:execute", "contracts/marketplace/src/state.rs:asks", "contracts/marketplace/src/state.rs:bids", "contracts/marketplace/src/state.rs:collection_bids"]}
{"id": "C125", "title": "v2: the books of every account balance", "statement": "For every account and every denom, over every history: what it attached to its calls plus what it earned by trades (its part of prices as seller, recipient of the proceeds, finder or recipient of the royalty, the fees if it is the fee manager) is exactly what is in its open bids, plus what the contract sent it, plus what it spent (listing fees for its own listings and the prices of what it bought), plus coins it attached to AcceptBid and AcceptCollectionBid (C05). The prices and parts are those that the two orders of each trade and the configuration determine. In particular bidding is free: who only placed, changed and withdrew bids none of which was filled has all its coins back or in its open bids.", "quantifier": "every history of fewer than 2^64-1 calls by anybody, every account, every denom", "why_tests_cant": "The claim is about one account in histories in which many accounts trade with each other, with refunds triggered by calls of others.", "anchors": ["contracts/stargaze-marketplace-v2/src/execute.rs:execute_set_bid", "contracts/stargaze-marketplace-v2/src/execute.rs:execute_update_bid", "contracts/stargaze-marketplace-v2/src/execute.rs:execute_remove_bid", "contracts/stargaze-marketplace-v2/src/execute.rs:execute_accept_ask", "contracts/stargaze-marketplace-v2/src/execute.rs:execute_update_collection_bid", "contracts/stargaze-marketplace-v2/src/execute.rs:execute_accept_collection_bid", "contracts/stargaze-marketplace-v2/src/helpers.rs:finalize_sale"]}
{"id": "C126", "title": "auction: a bidder gets back every bid it does not win by", "statement": "For every account and every denom, over every history of calls and hooks: what it attached to its bids is exactly what is in its standing high bids, plus what it was sent when it was outbid, plus the bids it won by; and a bid is won only if the token is sent to the bidder in the same call or hook. So who is never sent a token has all its coins back or in standing high bids. Besides bids only the creation of an auction takes coins.", "quantifier": "every history of calls and hooks, every account, every denom", "why_tests_cant": "The claim is about one account in histories with any number of auctions, bidders and settlements.", "anchors": ["contracts/reserve-auction/src/execute.rs:execute_place_bid", "contracts/reserve-auction/src/execute.rs:execute_cancel_auction", "contracts/reserve-auction/src/helpers.rs:settle_auction", "contracts/reserve-auction/src/sudo.rs:sudo_end_block"]}
{"id": "C127", "title": "v1: the books of every account balance", "statement": "For every account, over every history: the ustars it attached to its calls plus what it earned (the proceeds of sales as seller or named recipient, finder's fees, royalties, rewards for removing stale bids) is exactly what is in its open bids and collection bids, plus what the contract sent it, plus what it spent (listing fees, the prices of what it bought, the rewards taken from its stale bids). Proceeds, finder's fee and royalty of a sale are those that its terms, the stored rates and the collection's royalty determine, to the unit. No call takes or sends any other denom. In particular, who only bids, and whose bids are neither accepted nor removed as stale, has everything back or in open bids.", "quantifier": "every history of calls and sudo messages, every account", "why_tests_cant": "The claim is about one account in histories in which many accounts bid, sell, find and clean up.", "anchors": ["contracts/marketplace/src/execute.rs:execute_set_bid", "contracts/marketplace/src/execute.rs:execute_remove_bid", "contracts/marketplace/src/execute.rs:execute_reject_bid", "contracts/marketplace/src/execute.rs:execute_accept_bid", "contracts/marketplace/src/execute.rs:execute_set_collection_bid", "contracts/marketplace/src/execute.rs:execute_remove_stale_bid", "contracts/marketplace/src/execute.rs:execute_remove_stale_collection_bid", "contracts/marketplace/src/execute.rs:payout"]}
{"id": "C128", "title": "v2: every order and both sides of every trade were asked for by the account concerned", "statement": "Every open ask, bid and collection bid has exactly the terms (token or collection, price, recipient, finder) that some call of its own creator gave it, and no call since has touched it. In every trade one side asked for it by the call that makes the trade, the other by that call or by the one that gave its order the terms it has had ever since; the seller gets no less than the price it named there and the proceeds go to the recipient it named or to itself, the buyer pays no more than the price it named and the token goes to the recipient it named or to itself. AcceptCollectionBid sells the token it names.", "quantifier": "every history of fewer than 2^64-1 calls by anybody, every open order, every trade", "why_tests_cant": "Authorship over arbitrarily long histories in which others update, match and withdraw.", "anchors": ["contracts/stargaze-marketplace-v2/src/execute.rs:execute_set_ask", "contracts/stargaze-marketplace-v2/src/execute.rs:execute_update_ask", "contracts/stargaze-marketplace-v2/src/execute.rs:execute_set_bid", "contracts/stargaze-marketplace-v2/src/execute.rs:execute_update_bid", "contracts/stargaze-marketplace-v2/src/execute.rs:execute_accept_bid", "contracts/stargaze-marketplace-v2/src/execute.rs:execute_accept_collection_bid", "contracts/stargaze-marketplace-v2/src/orders.rs:Ask"]}
{"id": "C129", "title": "v1: every order was given its terms by its own account", "statement": "Every listing has the terms, including the price, that calls of its seller gave it; every bid and collection bid has the terms and the price that its bidder attached, untouched since. In every sale one side asked for it by the call itself and the other by the call that gave the listing or the bid its terms.", "quantifier": "every history of calls and sudo messages, every open order, every sale", "why_tests_cant": "Authorship over arbitrarily long histories, in which tokens also change hands outside of the contract.", "anchors": ["contracts/marketplace/src/execute.rs:execute_set_ask", "contracts/marketplace/src/execute.rs:execute_update_ask_price", "contracts/marketplace/src/execute.rs:execute_set_bid", "contracts/marketplace/src/execute.rs:execute_set_collection_bid", "contracts/marketplace/src/execute.rs:execute_accept_bid"]}
{"id": "C130", "title": "v1: a seller that accepts a bid is paid on the price it has seen", "statement": "If a bid is open and the token's owner then sends AcceptBid naming token and bidder, the sale is made at no less than the price of that bid, whatever calls of others are processed in between.", "quantifier": "every reachable state, every sequence of calls in between", "why_tests_cant": "All interleavings of calls.", "anchors": ["contracts/marketplace/src/execute.rs:execute_accept_bid", "contracts/marketplace/src/execute.rs:execute_accept_collection_bid", "contracts/marketplace/src/execute.rs:execute_set_bid"]}
{"id": "C131", "title": "auction: the winner made the highest of all bids", "statement": "Every open auction was created by its seller with its duration and payee, and its reserve price is the last one its seller named. Of all bids made on it since, each is one coin of the reserve's denom, no less than the reserve, not the seller's, and higher than all before it; the recorded high bid is the last. An auction is closed only by its seller's cancellation when there has been no bid, or with the token going to the account that made the highest of all its bids.", "quantifier": "every history of calls and hooks, every auction", "why_tests_cant": "The claim is about all bids of an auction of any length, mixed with hooks, postponements and other auctions.", "anchors": ["contracts/reserve-auction/src/execute.rs:execute_create_auction", "contracts/reserve-auction/src/execute.rs:execute_update_reserve_price", "contracts/reserve-auction/src/execute.rs:execute_place_bid", "contracts/reserve-auction/src/helpers.rs:settle_auction", "contracts/reserve-auction/src/sudo.rs:sudo_end_block"]}
{"id": "C132", "title": "v2: a listing fee of zero makes listing free", "statement": "Whatever can be listed for the listing fee can, once the admin has set the fee of that denom to zero, be listed without attaching coins. (And a change to any other fee changes what has to be attached and nothing else; every fee paid was set by the admin and not touched since.)", "quantifier": "every reachable state, every listing, every fee", "why_tests_cant": "About all states and all fees; tests use a positive fee throughout.", "anchors": ["contracts/stargaze-marketplace-v2/src/execute.rs:execute_set_listing_fee", "contracts/stargaze-marketplace-v2/src/execute.rs:execute_remove_listing_fee", "contracts/stargaze-marketplace-v2/src/execute.rs:execute_set_ask"]}
{"id": "C133", "title": "v2: at the same price the earlier order is served first", "statement": "A seller's SetAsk, SellNft or UpdateAsk does not sell to a bid while a bid of the same price on the same token that was made earlier is open; likewise for collection bids and for listings.", "quantifier": "every history, every two orders of the same price", "why_tests_cant": "Depends on the hashes that serve as order ids; any single test sees one outcome.", "anchors": ["contracts/stargaze-marketplace-v2/src/orders.rs:match_with_bid", "contracts/stargaze-marketplace-v2/src/orders.rs:match_with_ask", "contracts/stargaze-marketplace-v2/src/helpers.rs:generate_id", "contracts/stargaze-marketplace-v2/src/state.rs:bids"]}
{"id": "C134", "title": "auction: when an auction ends", "statement": "The first bid starts the clock. An auction with a bid is settled only if its duration has passed since the first bid and, for every later bid, the extension configured when that bid was made; and only if its end is not within a known halt. The recorded end is never later than one of these makes it: first bid plus duration, time of a later bid plus extension, or time of an attempt to settle it after a halt plus the postponement.", "quantifier": "every history of calls and hooks, every auction", "why_tests_cant": "About all bids and halts in the life of an auction, with the configuration changing meanwhile.", "anchors": ["contracts/reserve-auction/src/execute.rs:execute_place_bid", "contracts/reserve-auction/src/execute.rs:execute_settle_auction", "contracts/reserve-auction/src/helpers.rs:settle_auction", "contracts/reserve-auction/src/sudo.rs:sudo_end_block"]}
{"id": "C135", "title": "auction: keeping an auction open costs geometrically", "statement": "Without halts of the chain, every bid but the first prolongs an auction by at most the configured extension, and raises the price by at least the configured increment and at least one unit. So if the extension was at most E seconds and the increment at least I whenever something was called since an auction was opened, and the auction now ends more than m extensions after its duration has run out, its high bid is at least the reserve price times (1+I)^(m+1), and at least the reserve price plus m+1.", "quantifier": "every history of calls and hooks, every auction, every E, I and m", "why_tests_cant": "An unbounded number of bids; the claim is about growth, and about configurations that change meanwhile.", "anchors": ["contracts/reserve-auction/src/execute.rs:execute_place_bid", "contracts/reserve-auction/src/state.rs:Auction", "contracts/reserve-auction/src/sudo.rs:sudo_update_params", "contracts/reserve-auction/src/helpers.rs:settle_auction"]}
{"id": "C136", "title": "auction: the order of calls about different tokens does not matter", "statement": "A list of calls, some of which may fail, can be put into any other order in which the calls about each token keep theirs: every call gets the same reply (error or messages), and the contract ends with the same auctions and everything else the same. In particular two successful calls about different tokens can be swapped.", "quantifier": "every reachable state, every list of calls, every such order", "why_tests_cant": "All lists of calls and all their orders.", "anchors": ["contracts/reserve-auction/src/execute.rs:execute", "contracts/reserve-auction/src/state.rs:auctions"]}
{"id": "C137", "title": "v1: the order of calls about different orders does not matter", "statement": "Two calls that have no listing, bid or collection bid in common get the same replies in either order, whether they succeed or not, and leave the same orders and everything else behind. A list of calls can be put into any other order in which the calls about each collection keep theirs, with the same replies and the same result.", "quantifier": "every state, every two such calls, every list of calls and every such order", "why_tests_cant": "All lists of calls and all their orders.", "anchors": ["contracts/marketplace/src/execute.rs:execute", "contracts/marketplace/src/state.rs:asks", "contracts/marketplace/src/state.rs:bids", "contracts/marketplace/src/state.rs:collection_bids"]}
{"id": "C138", "title": "v2: the order of calls about different collections does not matter", "statement": "Two successful calls about different collections can be swapped: they succeed in the other order, with the same messages, and leave the same orders under the same ids and everything else the same.", "quantifier": "every reachable state, every two calls about different collections", "why_tests_cant": "All pairs of calls in all states; the calls share a counter.", "anchors": ["contracts/stargaze-marketplace-v2/src/execute.rs:execute", "contracts/stargaze-marketplace-v2/src/state.rs:NONCE", "contracts/stargaze-marketplace-v2/src/helpers.rs:generate_id", "contracts/stargaze-marketplace-v2/src/orders.rs:Bid"]}
{"id": "C139", "title": "all: contracts on one chain do not disturb each other", "statement": "Any number of deployments of the three contracts, under different addresses, run on one chain, with their messages interleaved as the chain interleaves them. What each of them sees is one of its own runs, so that every property of single contracts holds there too. Whenever anybody can make a call, a token of a conforming collection that one of them keeps (listed in v2, under auction) belongs to that contract; no token is kept by two of them. At every point the balance of each covers what it keeps for bidders and what it has still to pay.", "quantifier": "every number and kind of deployments, every interleaved run, every token", "why_tests_cant": "All interleavings of all runs of several contracts.", "anchors": ["contracts/stargaze-marketplace-v2/src/execute.rs:execute", "contracts/reserve-auction/src/execute.rs:execute", "contracts/marketplace/src/execute.rs:execute"]}
{"id": "C140", "title": "all: a token kept by one contract cannot be sold through another", "statement": "A token of a conforming collection that is listed in v2 or under auction cannot be listed, auctioned or sold through any other deployment of the three contracts at the same time: whoever makes the call, it fails.", "quantifier": "every number and kind of deployments, every interleaved run, every caller and call that offers the token", "why_tests_cant": "All interleavings of all runs of several contracts and all calls.", "anchors": ["contracts/stargaze-marketplace-v2/src/execute.rs:execute_set_ask", "contracts/reserve-auction/src/execute.rs:execute_create_auction", "contracts/marketplace/src/execute.rs:execute_set_ask", "contracts/marketplace/src/execute.rs:only_owner"]}
{"id": "C141", "title": "v2: more open bids are no worse for a seller", "statement": "A call by which a seller sells into an open bid (SetAsk, SellNft, UpdateAsk), made in a state with the same settings and listings and with further bids, sells too, at a price that is no lower, and pays the seller no less. (Violated: each fee is rounded up for itself, so that a higher price can leave less. The price is no lower, and the seller gets at most 3 base units less.)", "quantifier": "every two reachable states of which one has at least the bids of the other, every seller's call", "why_tests_cant": "All pairs of states and all prices; the effect is one of rounding.", "anchors": ["contracts/stargaze-marketplace-v2/src/orders.rs:match_with_bid", "contracts/stargaze-marketplace-v2/src/helpers.rs:finalize_sale", "contracts/stargaze-marketplace-v2/src/helpers.rs:divide_protocol_fees", "packages/sg-marketplace-common/src/sale.rs:NftSaleProcessor"]}
{"id": "C142", "title": "v2: more listings are no worse for a buyer of any token of the collection", "statement": "A call for any token of a collection (SetCollectionBid, BuyCollectionNft, UpdateCollectionBid) that is accepted is also accepted when further tokens of the collection are listed, and does not pay more. (Violated: a listing whose price does not cover the rounded fees, such as 1 base unit, is matched first and fails. As long as it is open all such calls fail, whoever makes them.)", "quantifier": "every two reachable states of which one has at least the listings of the other, every such call", "why_tests_cant": "All pairs of states and all calls; the listing that does the damage may be anybody's.", "anchors": ["contracts/stargaze-marketplace-v2/src/orders.rs:match_with_ask", "contracts/stargaze-marketplace-v2/src/helpers.rs:only_valid_price", "contracts/stargaze-marketplace-v2/src/helpers.rs:finalize_sale", "contracts/stargaze-marketplace-v2/src/execute.rs:execute_set_collection_bid"]}
{"id": "C143", "title": "v2: ids are as good as the hash is on what has been hashed", "statement": "The properties that need distinct order ids hold for a hash of fixed length, provided only that the strings hashed in the course of the history (those of the calls made) have different hashes: such a history is one of a marketplace whose hash has no collisions at all. In particular coins are conserved in every call, orders change only by their creators or by being filled, new bids get unused ids, the books of every account balance, both sides of a trade have asked for it and the account holds exactly what it owes. Without the assumption coins can get lost.", "quantifier": "every hash function, every history in which no two strings hashed collide, every call", "why_tests_cant": "All hash functions and all histories.", "anchors": ["contracts/stargaze-marketplace-v2/src/helpers.rs:generate_id", "contracts/stargaze-marketplace-v2/src/orders.rs:Ask", "contracts/stargaze-marketplace-v2/src/orders.rs:Bid", "contracts/stargaze-marketplace-v2/src/orders.rs:CollectionBid", "contracts/stargaze-marketplace-v2/src/execute.rs:execute"]}
{"id": "C144", "title": "auction: a bid does not get stuck because of whom the seller has named as payee", "statement": "On a chain whose bank refuses payments to some addresses (module accounts): from any point in the life of an auction with a bid, things can go on so that the auction is settled and the high bidder gets the token. (Violated: the seller can name any valid address to receive the proceeds. If it is refused, nobody can settle the auction, neither by a call nor by the hook, and the hook fails for the whole batch; the high bidder has neither coins nor token until somebody else bids more. If no payee is refused, anybody can settle it.)", "quantifier": "every set of refused addresses, every run, every auction with a bid of a conforming collection", "why_tests_cant": "Tests run on a bank that accepts all payments; the claim is about everything that can happen afterwards.", "anchors": ["contracts/reserve-auction/src/execute.rs:execute_create_auction", "contracts/reserve-auction/src/helpers.rs:settle_auction", "contracts/reserve-auction/src/sudo.rs:sudo_end_block"]}
{"id": "C145", "title": "all: refused payments stop only the call that makes them, and nobody is locked out", "statement": "On a chain whose bank refuses payments to some addresses, a call that the contract accepts completes if and only if none of its payments goes to such an address. Whatever recipients and finders others have named: whoever has an open bid or collection bid (v1 and v2) can withdraw it and gets the coins back, whoever has a listing (v2) or an auction without bids can withdraw it and gets the token back, and a higher bid on an auction goes through and refunds the bidder before.", "quantifier": "every set of refused addresses, every run, every open order", "why_tests_cant": "Tests run on a bank that accepts all payments; the orders of others are arbitrary.", "anchors": ["contracts/stargaze-marketplace-v2/src/execute.rs:execute_remove_bid", "contracts/stargaze-marketplace-v2/src/execute.rs:execute_remove_ask", "contracts/stargaze-marketplace-v2/src/helpers.rs:finalize_sale", "contracts/reserve-auction/src/execute.rs:execute_place_bid", "contracts/reserve-auction/src/execute.rs:execute_cancel_auction", "contracts/marketplace/src/execute.rs:execute_remove_bid", "contracts/marketplace/src/execute.rs:execute_remove_collection_bid"]}
{"id": "C146", "title": "v2: a listing that cannot be paid for does not stand in the way of the others", "statement": "On a chain whose bank refuses payments to some addresses, a purchase of any token of a collection (BuyCollectionNft) that the contract accepts completes, if the buyer can be paid and there is a listing within its limit for which only accounts have to be paid that are not refused. (Violated: the cheapest listing is taken. If its recipient or its finder is refused, every BuyCollectionNft, SetCollectionBid and UpdateCollectionBid at or above its price fails, whoever makes it, until the listing is withdrawn or its token is bought otherwise.)", "quantifier": "every set of refused addresses, every run, every purchase", "why_tests_cant": "Tests run on a bank that accepts all payments; the listing that does the damage may be anybody's.", "anchors": ["contracts/stargaze-marketplace-v2/src/orders.rs:match_with_ask", "contracts/stargaze-marketplace-v2/src/helpers.rs:finalize_sale", "contracts/stargaze-marketplace-v2/src/execute.rs:execute_set_collection_bid"]}
{"id": "C147", "title": "v2: a bid that cannot be paid out does not keep owners from listing", "statement": "On a chain whose bank refuses payments to some addresses, an owner that is not refused, and names no account that is, can list a token: the call completes if the contract accepts it. (Violated: a listing is matched with the best bid, and the finder of that bid gets a reward. If that finder is refused, nobody can list any token of the collection at or below the price of the bid, for as long as the bid is open. Above all bids listing works.)", "quantifier": "every set of refused addresses, every run, every listing", "why_tests_cant": "Tests run on a bank that accepts all payments; the bid that does the damage may be anybody's.", "anchors": ["contracts/stargaze-marketplace-v2/src/orders.rs:match_with_bid", "contracts/stargaze-marketplace-v2/src/helpers.rs:finalize_sale", "contracts/stargaze-marketplace-v2/src/helpers.rs:divide_protocol_fees", "contracts/stargaze-marketplace-v2/src/execute.rs:execute_set_ask"]}
{"id": "C148", "title": "all: a token sent to the contract by mistake can be returned", "statement": "Every token of a conforming collection that one of the contracts owns between transactions can be got out of it again by some sequence of calls. (Violated: a token that was transferred to a contract without an order, or bought or withdrawn in favour of the contract's own address, stays there for ever, whoever calls whatever; it cannot be listed or auctioned either. Listed tokens and tokens under auction can be got out; v1 never holds tokens, and nothing gets out that was sent to it.)", "quantifier": "every run, every token of a conforming collection, every continuation", "why_tests_cant": "The claim is about everything that can happen afterwards, in any number of calls by any accounts.", "anchors": ["contracts/stargaze-marketplace-v2/src/execute.rs:execute", "contracts/stargaze-marketplace-v2/src/execute.rs:execute_remove_ask", "contracts/stargaze-marketplace-v2/src/helpers.rs:only_owner", "contracts/reserve-auction/src/execute.rs:execute_create_auction", "contracts/reserve-auction/src/execute.rs:execute_cancel_auction", "contracts/marketplace/src/execute.rs:execute_set_bid", "contracts/marketplace/src/execute.rs:only_owner"]}
{"id": "C149", "title": "all: coins sent to the contract by mistake can be returned", "statement": "Coins in the account of one of the contracts that it does not owe to any bidder can be got out again by some sequence of calls. (Violated: what the account holds beyond the open bids and the payments still to be made never gets less, in any denom, through any run. That includes coins sent without a call, the coins of C05 and C42 and the dust of C46. What is owed can be got out.)", "quantifier": "every run, every denom, every continuation", "why_tests_cant": "The claim is about everything that can happen afterwards, in any number of calls by any accounts.", "anchors": ["contracts/stargaze-marketplace-v2/src/execute.rs:execute", "contracts/reserve-auction/src/execute.rs:execute", "contracts/reserve-auction/src/sudo.rs:sudo", "contracts/marketplace/src/execute.rs:execute", "contracts/marketplace/src/sudo.rs:sudo"]}
{"id": "C150", "title": "v1, v2: a listing brings what the fees at the time of listing leave", "statement": "A listing that stays as it is and is bought later brings its seller at least what it would have brought under the settings in force when it was placed, up to the rounding (3 base units in v2, one in v1). (Violated: the fees at the time of the sale count. After the admin of v2 has raised the protocol fee, or governance the network fee of v1, an open listing can sell for its full price with nothing left for the seller, who cannot prevent it other than by withdrawing the listing. If the settings stay the same the claim holds.)", "quantifier": "every run or history, every listing, every later purchase", "why_tests_cant": "Two points of a history with arbitrary calls between them, all settings and prices.", "anchors": ["contracts/stargaze-marketplace-v2/src/helpers.rs:finalize_sale", "contracts/stargaze-marketplace-v2/src/execute.rs:execute_update_config", "contracts/stargaze-marketplace-v2/src/state.rs:Config", "contracts/marketplace/src/execute.rs:payout", "contracts/marketplace/src/sudo.rs:sudo_update_params"]}
{"id": "C151", "title": "v2: trades are in the denom of the collection", "statement": "Whenever a token is traded, the price is in the denom that its collection has at that time. (Violated: after UpdateCollectionDenom the orders in the old denom stay, and AcceptAsk, AcceptBid and AcceptCollectionBid trade in the denom of the order. Trades that the contract makes by matching are in the current denom.)", "quantifier": "every reachable state, every call that trades", "why_tests_cant": "All histories, orders and denoms.", "anchors": ["contracts/stargaze-marketplace-v2/src/helpers.rs:only_valid_price", "contracts/stargaze-marketplace-v2/src/execute.rs:execute_update_collection_denom", "contracts/stargaze-marketplace-v2/src/execute.rs:execute_accept_ask", "contracts/stargaze-marketplace-v2/src/execute.rs:execute_accept_bid", "contracts/stargaze-marketplace-v2/src/execute.rs:execute_accept_collection_bid"]}
{"id": "C152", "title": "all: a query with a malformed address is refused, every other query is answered", "statement": "A query is answered if and only if all addresses in it are valid. (Violated in v1 and in the reserve auction: some addresses in offsets are not looked at, so a listing is continued from a place that cannot exist. A query about a malformed address is refused, and a query with valid addresses is always answered; in v2 the claim holds.)", "quantifier": "every state, every query message", "why_tests_cant": "All query messages with all combinations of optional arguments, in every state.", "anchors": ["contracts/stargaze-marketplace-v2/src/query.rs:query", "contracts/reserve-auction/src/query.rs:query", "contracts/marketplace/src/query.rs:query", "contracts/marketplace/src/query.rs:query_bids", "contracts/reserve-auction/src/query.rs:query_auctions_by_end_time"]}
{"id": "C153", "title": "all: a query shows only what is stored and asked for, each once, within the limit", "statement": "Whatever is asked, the orders and auctions in the answer are those stored, unchanged: looking one up by its key gives the same. Each is one that the query asks for (collection, token, denom, creator, seller, bidder, end time, inactive listings only on request), none is shown twice, and there are at most as many as asked for and never more than the cap.", "quantifier": "every reachable state, every query message with every offset, order and limit", "why_tests_cant": "All query messages, offsets and limits in every reachable state.", "anchors": ["contracts/stargaze-marketplace-v2/src/query.rs:query", "contracts/stargaze-marketplace-v2/src/query.rs:query_bids_by_token_price", "contracts/reserve-auction/src/query.rs:query", "contracts/reserve-auction/src/query.rs:query_auctions_by_end_time", "contracts/marketplace/src/query.rs:query", "contracts/marketplace/src/query.rs:query_asks", "contracts/marketplace/src/query.rs:query_bids"]}
{"id": "C154", "title": "all: paging while orders come and go", "statement": "A client that pages through a listing, each page starting after the last item of the one before, while any transactions happen between the pages, sees the items in the order of the listing, none at the same place twice, each as it was stored at that moment; and once a page is not full, it has seen every item that kept its place in the listing all the time. (Violated in v1 for the listings of bids by expiry: if the last bid shown is withdrawn meanwhile, the listing starts over and shows bids again. The other listings of v1, except for the defects of C57, C58, C67 and C68, all of v2 and those of the auctions have the property.)", "quantifier": "every list of reachable states, one for each page, every start, direction and page size", "why_tests_cant": "The states between the pages are arbitrary; tests page through a state at rest.", "anchors": ["contracts/stargaze-marketplace-v2/src/query.rs:query_asks_by_collection_denom", "contracts/stargaze-marketplace-v2/src/query.rs:query_bids_by_token_price", "contracts/reserve-auction/src/query.rs:query_auctions_by_seller", "contracts/reserve-auction/src/query.rs:query_auctions_by_end_time", "contracts/marketplace/src/query.rs:query_bids_by_bidder_sorted_by_expiry", "contracts/marketplace/src/query.rs:query_asks_sorted_by_price"]}
{"id": "C155", "title": "all: the work of a call does not grow with the number of orders", "statement": "However many orders and auctions there are: a call that succeeds sends at most eight messages in v2, at most six in v1 besides those to the registered hooks of one kind, and in the reserve auction at most two, or a token and the payments that the library makes for one sale. It writes or deletes at most one listing or auction, and at most one bid or else at most one collection bid. The end of a block sends at most the configured number of settlements times what one of them sends.", "quantifier": "every state, every call", "why_tests_cant": "Tests run with a handful of orders; all states and calls, with any number of orders.", "anchors": ["contracts/stargaze-marketplace-v2/src/execute.rs:execute", "contracts/stargaze-marketplace-v2/src/helpers.rs:finalize_sale", "contracts/marketplace/src/execute.rs:execute", "contracts/marketplace/src/execute.rs:finalize_sale", "contracts/reserve-auction/src/execute.rs:execute", "contracts/reserve-auction/src/sudo.rs:sudo_end_block"]}
{"id": "C156", "title": "all: changing an order gives what withdrawing it and placing it anew gives", "statement": "If both succeed, UpdateAsk, UpdateBid and UpdateCollectionBid (v2), UpdateAskPrice by the lister and a new bid or collection bid over an old one (v1), and UpdateReservePrice (auction) leave the same state as withdrawing the order and placing it anew with the same terms, up to the id of a v2 bid. In v2 the same trade is made, with the same messages, and it costs the bidder as much in all; v1 sends the same messages after the return of the old bid. Placing a listing or an auction anew costs the fee again and moves the token.", "quantifier": "every reachable state, every order, every change for which both succeed", "why_tests_cant": "Compares two executions from an arbitrary state; tests look at one at a time.", "anchors": ["contracts/stargaze-marketplace-v2/src/execute.rs:execute_update_ask", "contracts/stargaze-marketplace-v2/src/execute.rs:execute_update_bid", "contracts/stargaze-marketplace-v2/src/execute.rs:execute_update_collection_bid", "contracts/marketplace/src/execute.rs:execute_update_ask_price", "contracts/marketplace/src/execute.rs:execute_set_bid", "contracts/marketplace/src/execute.rs:execute_set_collection_bid", "contracts/reserve-auction/src/execute.rs:execute_update_reserve_price"]}
{"id": "C157", "title": "v1: what an account acquires is not for sale before it says so", "statement": "An account that does not own a token and later does, without having called the contract since, does not lose the token by a call of somebody else. (Violated: a listing stays when the token leaves its seller by a transfer; once the token is back, anyone can buy it at the old price, if the listing has not expired and was not removed meanwhile. It holds if no listing of the token by that account was left; while somebody else owns the token the old listing sells nothing, and the owner can remove it.)", "quantifier": "every run, every token of a conforming collection, every account, any number of transactions in between", "why_tests_cant": "Histories of any length with transfers outside the contract; tests do not give tokens away and take them back.", "anchors": ["contracts/marketplace/src/execute.rs:execute_set_bid", "contracts/marketplace/src/execute.rs:execute_set_ask", "contracts/marketplace/src/execute.rs:execute_remove_ask", "contracts/marketplace/src/execute.rs:finalize_sale"]}
{"id": "C158", "title": "v1: an expired listing has no effect", "statement": "Once a listing has expired, every call that is not about the listing itself has the result, messages and changes that it would have had if the listing had been removed. (Violated: bids for the token are refused with an error as long as the expired listing is there, although bids for unlisted tokens are accepted. It holds for all other calls.)", "quantifier": "every reachable state, every listing, every later time, every call", "why_tests_cant": "Compares two executions from an arbitrary state for every call.", "anchors": ["contracts/marketplace/src/execute.rs:execute_set_bid", "contracts/marketplace/src/execute.rs:execute_accept_bid", "contracts/marketplace/src/execute.rs:execute_remove_stale_ask"]}
{"id": "C159", "title": "auction: what the next bid must be does not change while nobody bids", "statement": "While an auction stands unchanged, a bid for its token with the same coins at the same time has the same result, accepted or not, new end and refund, at a later point of a history as at an earlier one. (Violated: the increment and the extension are read at the time of the bid and governance can change them while the auction runs. It holds for the first bid, and for later ones if these two settings are the same; twice the standing bid is always enough.)", "quantifier": "every history, every auction, every bid", "why_tests_cant": "Two points of a history with arbitrary calls between them, all settings and bids.", "anchors": ["contracts/reserve-auction/src/execute.rs:execute_place_bid", "contracts/reserve-auction/src/state.rs:min_bid_coin", "contracts/reserve-auction/src/sudo.rs:sudo_update_params"]}
{"id": "C160", "title": "all: exactly which calls are accepted", "statement": "In every reachable state a call succeeds if and only if the specification lists it: the conditions on the caller, the attached coins, the arguments, the order or auction concerned, the best order it meets, the settings, what collection and registry report and the time are necessary and together sufficient. Nothing else, such as other users or the history, can make a call fail or let it through. Amounts have 128 bits and times 64.", "quantifier": "every reachable state, every caller, attached coins, message, time and answers of collections; v2: order ids without collisions, nonce not exhausted", "why_tests_cant": "An equivalence over all states and calls; tests show single calls that pass or fail.", "anchors": ["contracts/stargaze-marketplace-v2/src/execute.rs:execute", "contracts/stargaze-marketplace-v2/src/helpers.rs:finalize_sale", "contracts/stargaze-marketplace-v2/src/orders.rs:match_with_bid", "contracts/marketplace/src/execute.rs:execute", "contracts/marketplace/src/execute.rs:execute_set_bid", "contracts/marketplace/src/execute.rs:payout", "contracts/reserve-auction/src/execute.rs:execute", "contracts/reserve-auction/src/execute.rs:execute_place_bid", "contracts/reserve-auction/src/helpers.rs:settle_auction"]}
{"id": "C161", "title": "all: exactly which governance calls, hooks and deployments are accepted", "statement": "A governance call, a block hook or a deployment succeeds if and only if the specification lists it. UpdateParams: sound new values and well-formed addresses. Lists of operators, hooks and minimum prices: what is added is not there, what is removed is. Begin-block hook: the clock has not gone back and the end of a detected halt has 64 bits. End-block hook of the auction: each of the tokens whose turn it is, the earliest of those that are over up to the configured number, can be settled by a call. Deployment: sound settings and well-formed addresses. It is determined by end times and tokens whose turn it is.", "quantifier": "every state (auction: every reachable state), message, time before 2^64 ns, collection addresses of less than 65536 bytes", "why_tests_cant": "An equivalence over all states and calls; for the end-block hook over all sets of auctions and end times.", "anchors": ["contracts/reserve-auction/src/sudo.rs:sudo", "contracts/reserve-auction/src/sudo.rs:sudo_begin_block", "contracts/reserve-auction/src/sudo.rs:sudo_end_block", "contracts/reserve-auction/src/sudo.rs:sudo_update_params", "contracts/reserve-auction/src/instantiate.rs:instantiate", "contracts/marketplace/src/sudo.rs:sudo", "contracts/marketplace/src/execute.rs:instantiate", "contracts/stargaze-marketplace-v2/src/instantiate.rs:instantiate"]}
{"id": "C162", "title": "v2, auction: what the queries show first is what trades next", "statement": "v2: a call for any token of a collection buys the listing that AsksByCollectionDenom shows first, if that is within the limit, and otherwise buys nothing. A call that offers a token sells to the first bid of BidsByTokenPrice or of CollectionBidsByPrice (both in descending order), whichever is higher, the bid on the token if they are equal, if it is within the limit; otherwise the token is not sold. Auction: the end-block hook takes up the auctions that AuctionsByEndTime shows first: those among the first as many as it may take up that are over are settled or postponed, the others that are shown stay as they are.", "quantifier": "every state (auction: every reachable state), every call that succeeds, every query from the start of the listing with room for an entry", "why_tests_cant": "Relates two entry points over all states; tests look at queries and trades apart.", "anchors": ["contracts/stargaze-marketplace-v2/src/query.rs:query_asks_by_collection_denom", "contracts/stargaze-marketplace-v2/src/query.rs:query_bids_by_token_price", "contracts/stargaze-marketplace-v2/src/query.rs:query_collection_bids_by_price", "contracts/stargaze-marketplace-v2/src/orders.rs:match_with_bid", "contracts/stargaze-marketplace-v2/src/orders.rs:match_with_ask", "contracts/reserve-auction/src/query.rs:query_auctions_by_end_time", "contracts/reserve-auction/src/sudo.rs:sudo_end_block"]}
{"id": "C163", "title": "v2: a trade uses the recipient and the finder that the call names", "statement": "When a call trades at once, the seller's part of the price goes to the recipient that the seller's call names, the token goes to the recipient that the buyer's call names (to the caller if none is named), and the finder of the caller's side is the one that the call names. (Violated: AcceptBid and AcceptCollectionBid of a token that the caller has listed use recipient and finder of the listing and ignore those in the call. It holds for all other calls.)", "quantifier": "every reachable state, every call that trades", "why_tests_cant": "All orders, recipients, finders and states in which the call may meet them.", "anchors": ["contracts/stargaze-marketplace-v2/src/execute.rs:execute_accept_bid", "contracts/stargaze-marketplace-v2/src/execute.rs:execute_accept_collection_bid", "contracts/stargaze-marketplace-v2/src/helpers.rs:finalize_sale"]}
{"id": "C164", "title": "v2, auction: what has been done to a bid cannot be done again", "statement": "v2: once a bid or collection bid has been filled, withdrawn or otherwise closed, no call that names it (accept, update, remove) succeeds ever after, whoever makes it: ids are not given out twice, so a call that was delayed or sent twice cannot hit another order. Auction: while an auction runs, an amount that has been bid is not accepted again, nor a smaller one, from the same or another account.", "quantifier": "every history (v2: of less than 2^64 - 1 calls, ids without collisions), every bid, every later call", "why_tests_cant": "Concerns all later calls in histories of any length.", "anchors": ["contracts/stargaze-marketplace-v2/src/execute.rs:execute_accept_bid", "contracts/stargaze-marketplace-v2/src/execute.rs:execute_remove_bid", "contracts/stargaze-marketplace-v2/src/orders.rs:Bid::new", "contracts/stargaze-marketplace-v2/src/helpers.rs:generate_id", "contracts/reserve-auction/src/execute.rs:execute_place_bid"]}
{"id": "C165", "title": "v1, v2: a purchase that is sent twice", "statement": "A call that is about one token and has bought it fails if the same account sends it again, whenever and with whatever coins: nobody pays twice for one token. (Violated: SetBid, in v1 and v2, that has bought the listed token leaves, when sent again, an open bid on the token that the caller now owns and ties up the coins until it is removed. Holds for AcceptAsk and BuySpecificNft of v2 and BuyNow and BuyFor of v1.)", "quantifier": "every reachable state, every call that has bought a token, every later time, coins and answers of collections for the second call", "why_tests_cant": "All states, times and coins of both calls.", "anchors": ["contracts/stargaze-marketplace-v2/src/execute.rs:execute_accept_ask", "contracts/stargaze-marketplace-v2/src/execute.rs:execute_set_bid", "contracts/stargaze-marketplace-v2/src/orders.rs:match_with_ask", "contracts/marketplace/src/execute.rs:execute_set_bid", "contracts/marketplace/src/execute.rs:execute"]}
{"id": "C166", "title": "auction: what settling pays does not depend on who settles and when", "statement": "An auction that has ended pays the same amounts to the same accounts whoever settles it, by a call or through the end-block hook, early or late. (Violated: the trading fee is read at settlement, so a change after the last bid, even after the end of the auction, alters what the seller gets. Holds while trading fee and fair-burn address stay the same; the winner and the total paid out never change.)", "quantifier": "every reachable state, every later state in which the auction still stands, every settler, time and answers of collections with the same royalty", "why_tests_cant": "All pairs of states of a history and both ways of settling, among any other auctions that the hook settles.", "anchors": ["contracts/reserve-auction/src/helpers.rs:settle_auction", "contracts/reserve-auction/src/execute.rs:execute_settle_auction", "contracts/reserve-auction/src/sudo.rs:sudo_end_block", "contracts/reserve-auction/src/sudo.rs:sudo_update_params"]}
{"id": "C167", "title": "v1: an expired bid has no effect", "statement": "Once a bid or collection bid has expired, every call but those that replace, withdraw, reject or clean up that very bid succeeds or fails, pays and changes the rest exactly as if the bid were not there; so it cannot be accepted. A new bid of the same account (also by BuyNow or BuyFor) does what it would do without the old one and gives the old one back in full on top.", "quantifier": "every state, every expired bid, every caller, coins, call and later time", "why_tests_cant": "Compares two executions for all states and calls.", "anchors": ["contracts/marketplace/src/execute.rs:execute_accept_bid", "contracts/marketplace/src/execute.rs:execute_accept_collection_bid", "contracts/marketplace/src/execute.rs:execute_set_bid", "contracts/marketplace/src/execute.rs:execute_set_collection_bid", "contracts/marketplace/src/state.rs:is_expired"]}
{"id": "C168", "title": "v2: coins attached beyond what is needed come back", "statement": "A call that pays for an order or a token (AcceptAsk, SetBid, UpdateBid, SetCollectionBid, UpdateCollectionBid, BuySpecificNft, BuyCollectionNft) and succeeds also succeeds if more coins are attached, in whatever denoms: the orders afterwards are the same, all payments and transfers are the same, and exactly what has been added goes back to the caller at the end of the same call. So neither what is bought nor the price depends on the coins attached.", "quantifier": "every reachable state, every such call, every two lists of attached coins of which one has at least as much in each denom; amounts of 128 bits", "why_tests_cant": "Compares two executions for all states and all pairs of coin lists.", "anchors": ["contracts/stargaze-marketplace-v2/src/execute.rs:execute_accept_ask", "contracts/stargaze-marketplace-v2/src/execute.rs:execute_set_bid", "contracts/stargaze-marketplace-v2/src/execute.rs:execute_update_bid", "contracts/stargaze-marketplace-v2/src/execute.rs:execute_set_collection_bid", "contracts/stargaze-marketplace-v2/src/execute.rs:execute_update_collection_bid"]}
{"id": "C169", "title": "v2: the limit of a trade only decides whether there is one", "statement": "If SellNft, BuySpecificNft, BuyCollectionNft, AcceptAsk, AcceptBid or AcceptCollectionBid succeeds with some limit price, then it also succeeds with every limit in the same denom that asks for less (a higher one of a buyer, a lower one of a seller; positive for SellNft), and does exactly the same: same counterparty, same price, same payments, same orders afterwards. The same holds of SetAsk, UpdateAsk, SetBid, UpdateBid, SetCollectionBid and UpdateCollectionBid when they trade instead of leaving an order. Nobody who states a generous limit pays more or gets less for it.", "quantifier": "every state (for orders: every reachable one), every such call, every limit that asks for less (below 2^128 - 1 for collection bids)", "why_tests_cant": "Compares two executions for all states, order books and pairs of limits.", "anchors": ["contracts/stargaze-marketplace-v2/src/execute.rs:execute_set_ask", "contracts/stargaze-marketplace-v2/src/execute.rs:execute_set_bid", "contracts/stargaze-marketplace-v2/src/execute.rs:execute_set_collection_bid", "contracts/stargaze-marketplace-v2/src/execute.rs:execute_accept_ask", "contracts/stargaze-marketplace-v2/src/execute.rs:execute_accept_bid", "contracts/stargaze-marketplace-v2/src/execute.rs:execute_accept_collection_bid", "contracts/stargaze-marketplace-v2/src/execute.rs:execute_update_ask", "contracts/stargaze-marketplace-v2/src/execute.rs:execute_update_bid", "contracts/stargaze-marketplace-v2/src/execute.rs:execute_update_collection_bid", "contracts/stargaze-marketplace-v2/src/orders.rs:match_with_bid", "contracts/stargaze-marketplace-v2/src/orders.rs:match_with_ask", "contracts/stargaze-marketplace-v2/src/helpers.rs:finalize_sale"]}

#!/usr/bin/env python3
# Generates /verif/properties.jsonl. One entry per property; ids are stable, new entries are appended.
import json
V2="contracts/stargaze-marketplace-v2/src/"; RA="contracts/reserve-auction/src/"; V1="contracts/marketplace/src/"; CM="packages/sg-marketplace-common/src/"
P=[]
def p(title, statement, quantifier, why, anchors):
    P.append(dict(id="C%02d"%(len(P)+1), title=title, statement=statement, quantifier=quantifier, why_tests_cant=why, anchors=anchors))

# ---------------------------------------------------------------- marketplace v2
p("v2: sale proceeds are split exactly",
  "When a sale goes through on marketplace v2, the bank payments made for it add up to exactly the sale price, in the sale denom: every fee is its share of the price rounded up, the seller gets the remainder, and if the rounded fees exceed the price the whole sale is rejected. Nothing is created, lost or left over.",
  "every sale price, every list of fee shares (any Decimal) and recipients",
  "Rounding of several fees interacts; the sum being exact for every price and share combination cannot be enumerated.",
  [CM+"sale.rs:NftSaleProcessor::build_payments", CM+"sale.rs:NftSaleProcessor::payout", V2+"helpers.rs:finalize_sale"])
p("v2: finder rewards are carved out of the protocol fee",
  "For any configuration the contract accepts, the shares charged for protocol, maker finder and taker finder on a sale add up to exactly protocol_fee_bps/10000; a finder that is absent gets nothing; the computation never aborts. So naming finders never changes the total share taken from the seller.",
  "every accepted configuration (all bps values) and every combination of present/absent finders",
  "Fixed-point multiplication truncates; exactness for all bps combinations is an arithmetic fact over a 10000^3 domain.",
  [V2+"helpers.rs:divide_protocol_fees", V2+"state.rs:Config::save"])
p("v2: open bids are always fully backed",
  "At every point of every execution (including inside nested calls made by a hostile NFT collection while its transfer is being processed), the bank balance of the marketplace in each denom is at least the sum of the prices of all open bids and collection bids in that denom plus all payments it still has to send.",
  "every history of transactions by any accounts, any hostile re-entrant collection contract, any admin reconfiguration, every denom",
  "Unbounded histories and re-entrancy interleavings; a test exercises one history.",
  [V2+"execute.rs:execute", V2+"helpers.rs:finalize_sale", V2+"state.rs:bids", V2+"state.rs:collection_bids"])
p("v2: each call accounts for every coin",
  "For every successful call, coins attached + escrow before = coins paid out + escrow after, per denom, except that coins attached to AcceptBid, AcceptCollectionBid and the admin messages stay in the contract. In particular SetBid/UpdateBid/AcceptAsk (and collection variants) return everything above the price actually charged to the caller.",
  "every reachable state, caller, attached funds (any list of coins), message and denom",
  "Needs exact accounting for all fund lists and all match outcomes.",
  [V2+"execute.rs:execute_set_bid", V2+"execute.rs:execute_update_bid", V2+"execute.rs:execute_accept_ask", V2+"execute.rs:execute_set_collection_bid", V2+"execute.rs:execute_update_collection_bid"])
p("v2: coins attached to AcceptBid are never trapped",
  "A seller accepting a bid or a collection bid never loses coins: any coins attached to AcceptBid/AcceptCollectionBid are either refunded or the call is rejected. (Expected to be violated: these handlers neither reject nor return attached coins.)",
  "every accepted AcceptBid / AcceptCollectionBid call and attached funds",
  "Tests never attach funds to these calls; the claim ranges over all fund lists.",
  [V2+"execute.rs:execute_accept_bid", V2+"execute.rs:execute_accept_collection_bid"])
p("v2: a bidder can always get their money back",
  "In every reachable state, the creator of an open bid (or collection bid) can call RemoveBid (RemoveCollectionBid) with no funds; the call and its refund succeed, the bid disappears, and the creator's balance rises by exactly the bid price.",
  "every reachable state, every open bid/collection bid",
  "Liveness in all reachable states; depends on solvency of the whole history.",
  [V2+"execute.rs:execute_remove_bid", V2+"execute.rs:execute_remove_collection_bid"])
p("v2: listed NFTs are in custody",
  "Between transactions, every NFT of a standards-conforming collection that has an open ask is owned by the marketplace contract.",
  "every history of transactions, every open ask on a conforming collection, with other collections hostile and re-entrant",
  "Unbounded histories with re-entrancy.",
  [V2+"execute.rs:execute_set_ask", V2+"execute.rs:execute_remove_ask", V2+"helpers.rs:finalize_sale"])
p("v2: a seller can always get their NFT back",
  "In every reachable state the creator of an open ask on a conforming collection can call RemoveAsk; it succeeds and the NFT goes to the ask's recipient (or the creator when none is set).",
  "every reachable state, every open ask on a conforming collection",
  "Liveness over all reachable states.",
  [V2+"execute.rs:execute_remove_ask"])
p("v2: orders only change with the owner's consent",
  "An open ask, bid or collection bid is changed or removed by a call only if the caller is its creator, or the call is a trade that fills that very order on its own terms. All other orders are left untouched by the call. (For asks: on collections that answer ownership queries truthfully; see C62 for the others.)",
  "every reachable state, every caller and message, every open order",
  "Frame property over all other orders and all messages.",
  [V2+"execute.rs:execute", V2+"helpers.rs:finalize_sale"])
p("v2: configuration only changes by the admin",
  "The configuration, collection denoms and listing fees change only in a call sent by the contract admin; with no admin set nobody can change them.",
  "every state, caller and message",
  "All callers and messages.",
  [V2+"helpers.rs:only_contract_admin", V2+"execute.rs:execute_update_config", V2+"execute.rs:execute_update_collection_denom", V2+"execute.rs:execute_set_listing_fee", V2+"execute.rs:execute_remove_listing_fee"])
p("v2: the order book is never crossed",
  "Between calls there is never an open ask together with an open bid on the same token (or an open collection bid on the same collection) in the same denom whose price is at or above the ask price.",
  "every history of calls, including admin denom changes",
  "Global invariant over all pairs of orders after unbounded histories.",
  [V2+"orders.rs:Ask::match_with_bid", V2+"orders.rs:Bid::match_with_ask", V2+"orders.rs:CollectionBid::match_with_ask"])
p("v2: sellers are matched with the best bid",
  "When SetAsk, SellNft or UpdateAsk trades, the buyer chosen has the highest price among all open bids on that token and all open collection bids on that collection in the ask's denom, the seller is paid on that bid's price, and that price is at least the ask price; on equal price the token bid is preferred to the collection bid. If any eligible bid exists a trade happens (or the call fails).",
  "every reachable state and every ask",
  "Ranges over all order books.",
  [V2+"orders.rs:Ask::match_with_bid", V2+"query.rs:query_bids_by_token_price", V2+"query.rs:query_collection_bids_by_price"])
p("v2: collection buyers get the cheapest listing",
  "When SetCollectionBid, BuyCollectionNft or UpdateCollectionBid trades, the NFT bought is one with the lowest ask price in that collection and denom, and the price charged is that ask price, never above the bid price.",
  "every reachable state and every collection bid",
  "Ranges over all order books.",
  [V2+"orders.rs:CollectionBid::match_with_ask", V2+"query.rs:query_asks_by_collection_denom"])
p("v2: limit prices are respected",
  "In every sale the price charged is in the buyer's stated denom and at most the buyer's stated price; and it is in the seller's stated denom and at least the price stated by the seller in the ask being filled, or in the seller's own AcceptBid/AcceptCollectionBid call.",
  "every reachable state, every call that results in a sale",
  "All states, orders and calls.",
  [V2+"helpers.rs:finalize_sale", V2+"execute.rs:execute_accept_ask", V2+"execute.rs:execute_accept_bid", V2+"execute.rs:execute_accept_collection_bid"])
p("v2: immediate-or-cancel calls leave nothing behind",
  "SellNft, BuySpecificNft and BuyCollectionNft either complete a sale in the same call or fail; they never leave a resting order.",
  "every state and input",
  "All order books.",
  [V2+"execute.rs:execute_set_ask", V2+"execute.rs:execute_set_bid", V2+"execute.rs:execute_set_collection_bid"])
p("v2: order ids never clash",
  "Assuming the hash is collision free and no valid address is a proper prefix of another, distinct (collection, token) pairs have distinct ask ids, a newly created bid or collection bid never reuses the id of an open one, and there is at most one ask per token.",
  "all collections, tokens, heights and nonces; every history with fewer than 2^64 bids",
  "Concatenation without separators makes this an injectivity statement over all byte strings.",
  [V2+"helpers.rs:generate_id", V2+"orders.rs:Ask::new", V2+"orders.rs:Bid::new", V2+"orders.rs:CollectionBid::new"])
p("v2: stored configuration is always sane",
  "In every reachable state protocol_fee_bps < 10000 and maker_reward_bps + taker_reward_bps < 10000.",
  "every history of calls",
  "Invariant over unbounded histories.",
  [V2+"state.rs:Config::save", V2+"instantiate.rs:instantiate", V2+"execute.rs:execute_update_config"])
p("v2: open orders have positive prices and no call ever sends zero coins",
  "Every open order has a positive price, and every bank transfer the contract emits has a non-empty coin list with positive amounts (the chain rejects anything else, which would revert the trade).",
  "every reachable state and call",
  "Zero-amount edge cases come from rounding of arbitrary prices and shares.",
  [V2+"helpers.rs:only_valid_price", CM+"sale.rs:NftSaleProcessor::build_payments", CM+"coin.rs:transfer_coins"])
p("v2: the listing fee is exact and forwarded",
  "A successful SetAsk or SellNft was paid with exactly one coin whose amount equals the listing fee configured for its denom, and that coin is sent in full to the fee manager.",
  "every state, attached funds and configuration",
  "All fund lists.",
  [V2+"execute.rs:execute_set_ask"])
p("v2: nothing trades before trading starts",
  "While a collection reports a start_trading_time in the future, no SetAsk, SellNft, SetBid, BuySpecificNft, SetCollectionBid or BuyCollectionNft call on it succeeds.",
  "every state, block time and collection answer",
  "All times and states.",
  [CM+"nft.rs:only_tradable", V2+"execute.rs:execute_set_ask", V2+"execute.rs:execute_set_bid", V2+"execute.rs:execute_set_collection_bid"])
p("v2: an untradable collection cannot change hands through the marketplace",
  "While a collection reports a start_trading_time in the future, no call results in a sale of its NFTs. (Expected to be violated: AcceptAsk, AcceptBid, AcceptCollectionBid, UpdateAsk, UpdateBid and UpdateCollectionBid do not check it.)",
  "every state and call",
  "The gap only shows when the start time moves after orders were placed.",
  [CM+"nft.rs:only_tradable", V2+"execute.rs:execute_accept_bid", V2+"execute.rs:execute_accept_ask"])
p("v2: royalties are capped and go to the registered recipient",
  "In every sale the royalty paid is the smaller of the registered share and max_royalty_fee_bps, rounded up; it goes to the protocol-specific registry entry if present, else the default entry, else the collection's own royalty info; with none of these no royalty is charged.",
  "every sale, registry answer and collection answer",
  "All shares and registry/collection answers.",
  [V2+"helpers.rs:finalize_sale", CM+"royalties.rs:fetch_or_set_royalties", CM+"royalties.rs:fetch_royalty_entry"])
p("v2: a sale is atomic and moves exactly one NFT",
  "Every call emits at most one NFT transfer. A sale emits exactly one, of the sold token to the buyer's recipient (or the buyer), and removes the filled ask and the filled bid; no other order changes.",
  "every reachable state and call",
  "All states and calls.",
  [V2+"helpers.rs:finalize_sale"])
p("v2: paged price queries lose and repeat nothing",
  "Price-sorted queries (asks by collection/denom, bids by token, collection bids) return exactly the orders of that collection/token and denom within the bounds, sorted by price then id; walking the pages with the last returned (price, id) as exclusive bound visits every order exactly once, in either direction.",
  "every store, every page size, every number of pages",
  "All stores and page sizes.",
  [V2+"query.rs:query_asks_by_collection_denom", V2+"query.rs:query_bids_by_token_price", V2+"query.rs:query_collection_bids_by_price"])
p("v2: bids on one token never show up under another",
  "Because token bids are indexed under collection + '/' + token id, the index key determines the (collection, token) pair for all valid collection addresses and arbitrary token ids (including token ids containing '/'), so a bid can only match an ask on its own token.",
  "all valid addresses and all token id strings",
  "Injectivity over all strings.",
  [V2+"helpers.rs:build_collection_token_index_str", V2+"state.rs:bids"])
p("v2: the sender must own the NFT to list or sell it",
  "SetAsk, SellNft, AcceptBid and AcceptCollectionBid (without an existing ask) succeed only if the collection reports the sender as owner of the token. (Expected to be violated as stated: when the ownership query fails the check passes; for a conforming collection the transaction then still fails at the NFT transfer.)",
  "every state, caller, collection answer",
  "The failing-query branch is only reachable with non-conforming collections.",
  [CM+"nft.rs:only_owner", V2+"execute.rs:execute_set_ask", V2+"execute.rs:execute_accept_bid"])

# ---------------------------------------------------------------- reserve auction
p("auction: escrowed bids are always fully backed",
  "At every point of every execution (including inside nested calls by hostile collections), the auction contract's balance in each denom is at least the sum of the current high bids in that denom plus all payments it still has to send.",
  "every history of executes, block hooks, parameter changes and re-entrant calls; every denom",
  "Unbounded histories and re-entrancy.",
  [RA+"execute.rs:execute_place_bid", RA+"helpers.rs:settle_auction", RA+"sudo.rs:sudo_end_block"])
p("auction: bids strictly increase",
  "Each accepted bid is at least the reserve price if it is the first, and otherwise at least the previous high bid increased by min_bid_increment_percent rounded up; in particular it is strictly greater than the previous one, and the high bid of an auction never decreases over any history.",
  "every history, every increment setting accepted by the contract",
  "Over all histories and percentages; rounding at small amounts.",
  [RA+"state.rs:Auction::min_bid_coin", RA+"execute.rs:execute_place_bid"])
p("auction: the outbid bidder is refunded in full in the same transaction",
  "A successful PlaceBid on an auction with a high bid sends exactly the previous high bid's coin to the previous bidder, and the new bidder's whole payment becomes the high bid.",
  "every reachable state and call",
  "All states.",
  [RA+"execute.rs:execute_place_bid"])
p("auction: life-cycle fields stay consistent",
  "In every reachable state, an auction has a high bid iff it has an end time iff it has a first bid time; the high bid is in the reserve price's denom and positive. Hence the unwraps in bidding, settling and the end-block hook never panic.",
  "every history",
  "Invariant over unbounded histories.",
  [RA+"state.rs:Auction", RA+"execute.rs:execute_place_bid", RA+"helpers.rs:settle_auction", RA+"sudo.rs:sudo_end_block"])
p("auction: NFTs under auction are in custody",
  "Between transactions every NFT of a conforming collection under auction is owned by the auction contract.",
  "every history including end-block batches that interleave hostile and conforming collections",
  "Unbounded histories, re-entrancy inside batches.",
  [RA+"execute.rs:execute_create_auction", RA+"execute.rs:execute_cancel_auction", RA+"helpers.rs:settle_auction"])
p("auction: only the seller, and only before the first bid, may cancel or reprice",
  "CancelAuction and UpdateReservePrice succeed only for the seller and only while there is no bid; cancelling returns the NFT to the seller. While a bid stands, the seller, reserve price, duration, funds recipient of the auction never change.",
  "every history, caller and message",
  "All callers, messages and histories.",
  [RA+"execute.rs:execute_cancel_auction", RA+"execute.rs:execute_update_reserve_price"])
p("auction: bidding and settling never overlap",
  "At no block time do both PlaceBid and SettleAuction succeed on the same auction; no settlement happens before the end time and no bid is accepted at or after the end second.",
  "every state and block time (nanosecond resolution)",
  "Two different time resolutions are compared; all times.",
  [RA+"execute.rs:execute_place_bid", RA+"helpers.rs:settle_auction"])
p("auction: late bids extend, nothing shortens",
  "A bid never moves the end time earlier; after any non-first bid at least extend_duration seconds remain; the first bid sets the end to its time plus the duration. Postponement during a halt never moves the end time earlier.",
  "every reachable state and bid time",
  "Seconds truncation over all times.",
  [RA+"execute.rs:execute_place_bid", RA+"helpers.rs:settle_auction"])
p("auction: settlement happens once and pays out exactly the high bid",
  "A settlement removes the auction, sends the NFT to the high bidder and pays out exactly the high bid; a settled auction cannot be settled again, cancelled or bid on.",
  "every reachable state",
  "All states, with the fee-splitting library as an assumption.",
  [RA+"helpers.rs:settle_auction", RA+"execute.rs:execute_settle_auction"])
p("auction: an ended auction can be settled by anyone",
  "In every reachable state, an auction of a conforming collection whose end time has passed can be settled (or postponed if in a halt window) by any account: the call and all its messages succeed, provided the fee split itself succeeds.",
  "every reachable state, any caller",
  "Liveness over all reachable states.",
  [RA+"execute.rs:execute_settle_auction", RA+"helpers.rs:settle_auction"])
p("auction: one end-block call settles at most the configured number, earliest first",
  "The end-block hook touches at most max_auctions_to_settle_per_block auctions, all of them due, and no untouched due auction ends (in seconds) before a touched one.",
  "every store, limit and block time",
  "All stores and limits.",
  [RA+"sudo.rs:sudo_end_block"])
p("auction: the end-block hook never fails because of timing",
  "In every reachable state whose due auctions could each be settled individually or are not yet due, the end-block hook succeeds. (Expected to be violated: it selects auctions by whole seconds but settlement compares nanoseconds, so an auction ending later within the current second aborts the whole hook.)",
  "every reachable state and block time",
  "Needs sub-second block times, which the tests do not use.",
  [RA+"sudo.rs:sudo_end_block", RA+"helpers.rs:settle_auction"])
p("auction: auctions ending in a detected halt are postponed, not settled",
  "If the begin-block hook detected a halt, no auction whose end time lies strictly inside the halt window (including its buffer) is settled; it is postponed instead. (Expected to be violated: the window is discarded by the next end-block that finds no due auction, even before the buffer has elapsed.)",
  "every history of blocks and calls",
  "Depends on interleavings of blocks without due auctions.",
  [RA+"state.rs:HaltManager::find_stale_halt_info", RA+"sudo.rs:sudo_begin_block", RA+"sudo.rs:sudo_end_block", RA+"helpers.rs:settle_auction"])
p("auction: one bad auction does not block the others",
  "An auction that cannot be settled (its collection reports an unpayable royalty) does not prevent the end-block hook from settling other due auctions. (Expected to be violated: the first error aborts the batch.)",
  "every store and batch",
  "Needs a hostile collection inside a batch.",
  [RA+"sudo.rs:sudo_end_block", RA+"helpers.rs:settle_auction"])
p("auction: configuration and durations stay within bounds",
  "In every reachable state 0 < min_bid_increment_percent < 1, min_duration > 0, extend_duration > 0, and every auction was created with a duration inside the bounds then in force and a reserve price at least the minimum then configured for an accepted denom.",
  "every history",
  "Invariant over unbounded histories.",
  [RA+"state.rs:Config::validate", RA+"execute.rs:execute_create_auction", RA+"helpers.rs:validate_reserve_price", RA+"sudo.rs:sudo_update_params"])
p("auction: the creation fee takes exactly the fee",
  "CreateAuction charges exactly the configured fee: nothing above it stays in the contract. (Expected to be violated: any funds containing at least the fee are accepted and the excess is kept.)",
  "every attached funds list and configured fee",
  "All fund lists.",
  [RA+"execute.rs:execute_create_auction"])
p("auction: calls on one auction do not affect the others",
  "CreateAuction, UpdateReservePrice, CancelAuction, PlaceBid and SettleAuction on one token leave every other auction unchanged; there is at most one auction per token.",
  "every state, message and other auction",
  "Frame property over all other auctions.",
  [RA+"execute.rs:execute", RA+"helpers.rs:only_no_auction"])

# ---------------------------------------------------------------- marketplace v1
p("v1: open bids are always fully backed",
  "At every point of every execution (including nested calls by hostile collections and hook contracts), the v1 marketplace's native balance is at least the sum of all open bids and collection bids plus all payments it still has to send.",
  "every history, every re-entrant collection or hook contract",
  "Unbounded histories and re-entrancy.",
  [V1+"execute.rs:execute_set_bid", V1+"execute.rs:execute_accept_bid", V1+"execute.rs:payout"])
p("v1: a sale pays out the price up to one unit of dust",
  "When a v1 sale succeeds, network fee, finder's fee, royalty and seller payment add up to the price or the price minus one smallest unit, never more; with no royalty they add up exactly.",
  "every price, fee setting, finder's fee and royalty share",
  "Two independent floors of arbitrary decimals.",
  [V1+"execute.rs:payout"])
p("v1: a sale pays out exactly the price",
  "When a v1 sale succeeds the payments add up to exactly the price. (Expected to be violated: floor(p*r) + floor(p*(1-r)) can be p-1, and the missing unit stays in the contract.)",
  "every price and royalty share",
  "Needs a price/share pair whose product is not integral.",
  [V1+"execute.rs:payout"])
p("v1: a bidder can always withdraw",
  "In every reachable state the owner of an open bid or collection bid can remove it with RemoveBid / RemoveCollectionBid and receives exactly its price (active contract or not).",
  "every reachable state and open bid",
  "Liveness over all reachable states.",
  [V1+"execute.rs:execute_remove_bid", V1+"execute.rs:execute_remove_collection_bid"])
p("v1: replacing a bid refunds the old one",
  "There is at most one bid per bidder and token (and one collection bid per bidder and collection); placing a new one refunds exactly the old price to the same bidder in the same transaction.",
  "every reachable state and call",
  "All states.",
  [V1+"execute.rs:execute_set_bid", V1+"execute.rs:execute_set_collection_bid"])
p("v1: an NFT is sold only with its owner's consent and at the agreed price",
  "Every sale is either a call by the NFT's current owner accepting a specific bid at that bid's price, or a purchase at exactly the price of an active, unexpired fixed-price ask whose seller is the current owner.",
  "every state and call",
  "All states, askers and bidders.",
  [V1+"execute.rs:execute_set_bid", V1+"execute.rs:execute_accept_bid", V1+"execute.rs:execute_accept_collection_bid", V1+"execute.rs:finalize_sale"])
p("v1: a reserved listing is sold only to the buyer it is reserved for",
  "While an ask is reserved for an address, no other address can place a bid on the token or buy it through the listing.",
  "every state and caller",
  "All states and callers.",
  [V1+"execute.rs:execute_set_bid"])
p("v1: only the NFT owner manages a listing",
  "SetAsk, RemoveAsk, UpdateAskPrice, AcceptBid, AcceptCollectionBid and RejectBid succeed only when the caller owns the NFT.",
  "every state and caller",
  "All states and callers.",
  [V1+"execute.rs:only_owner", V1+"execute.rs:execute_set_ask", V1+"execute.rs:execute_update_ask_price", V1+"execute.rs:execute_remove_ask", V1+"execute.rs:execute_reject_bid"])
p("v1: listing prices stay within the allowed range",
  "Every fixed-price ask has price between min_price (at listing time) and the fixed maximum. (Expected to be violated: UpdateAskPrice does not check the maximum.)",
  "every history",
  "Needs the update path with a huge price.",
  [V1+"execute.rs:execute_set_ask", V1+"execute.rs:execute_update_ask_price", V1+"execute.rs:price_validate"])
p("v1: stale removal respects the bidder",
  "RemoveStaleBid / RemoveStaleCollectionBid succeed only for an operator and only after expiry plus the stale duration; bidder refund plus operator reward equals the bid price, and the reward is at most bid_removal_reward_bps of it.",
  "every state, time, caller",
  "All times and prices.",
  [V1+"execute.rs:execute_remove_stale_bid", V1+"execute.rs:execute_remove_stale_collection_bid"])
p("v1: hook contracts cannot block trading",
  "For any behaviour of registered hook contracts, including always failing, the marketplace operation that triggers them has the same effect on orders, balances of the contract, and NFTs as with no hooks registered.",
  "every state, call and hook behaviour",
  "All hook behaviours.",
  [V1+"execute.rs:prepare_sale_hook", V1+"execute.rs:reply"])
p("v1: parameters stay within bounds",
  "In every reachable state trading fee, maximum finder's fee and bid removal reward are at most 100%, and expiry ranges are ordered.",
  "every history of sudo calls",
  "Invariant over histories.",
  [V1+"sudo.rs:sudo_update_params", V1+"execute.rs:instantiate", V1+"helpers.rs:ExpiryRange::validate"])
p("v1: finder's fees are bounded",
  "Every stored ask and bid carries a finder's fee of at most the maximum in force when it was placed, and a sale pays a finder at most that share of the price.",
  "every history",
  "All histories.",
  [V1+"execute.rs:execute_set_ask", V1+"execute.rs:execute_set_bid", V1+"execute.rs:payout"])
p("v1: the asks query lists every ask",
  "Walking the Asks query of a collection from the beginning returns every stored ask of that collection once. (Expected to be violated: without start_after the query starts strictly after token id 0.)",
  "every store",
  "Needs an ask on token 0.",
  [V1+"query.rs:query_asks"])
p("v1: the reverse asks query lists asks",
  "ReverseAsks without a start returns the asks of a collection from the highest token id down. (Expected to be violated: with no start_before nothing is returned.)",
  "every store",
  "Any non-empty store.",
  [V1+"query.rs:reverse_query_asks"])
p("v1: price-sorted queries are sorted and complete",
  "AsksSortedByPrice, BidsSortedByPrice and their reverse variants return orders of the collection sorted by (price, key), without duplicates, and paging with the last (price, key) as start visits every order exactly once.",
  "every store and page size",
  "All stores.",
  [V1+"query.rs:query_asks_sorted_by_price", V1+"query.rs:query_bids_sorted_by_price"])

# ---------------------------------------------------------------- shared library
p("common: validated address lists are sorted, duplicate free and complete",
  "map_validate returns each distinct input address exactly once, in ascending order, and fails iff some input is invalid.",
  "every list of strings",
  "All lists.",
  [CM+"address.rs:map_validate"])
p("common: checked transfers never send zero",
  "checked_transfer_coins succeeds iff no coin in the list is zero and then emits exactly one bank transfer of exactly those coins.",
  "every coin list",
  "All lists.",
  [CM+"coin.rs:checked_transfer_coins"])
# ---------------------------------------------------------------- added while modelling
p("v2: an ask survives other people's calls on any collection",
  "An open ask is removed or changed only by its creator or by a trade filling it, whatever its collection answers to ownership queries. (Expected to be violated: when the OwnerOf query fails, anybody can run SellNft or SetAsk on the listed token and the listing is deleted by the sale.)",
  "every reachable state, every call, every query answer",
  "Needs a collection whose OwnerOf query fails for a listed token.",
  [V2+"execute.rs:execute_set_ask", CM+"nft.rs:only_owner"])
p("auction: a seller can cancel before the first bid",
  "Between transactions the seller of an auction of a conforming collection without bids can cancel it: the call and the transfer succeed, the auction is gone, nothing else changes and the seller owns the token again.",
  "every execution, every auction without bids",
  "A liveness statement about all reachable states.",
  [RA+"execute.rs:execute_cancel_auction"])
p("auction: exact accounting of every call and hook",
  "For every denom, payments sent by a successful call (other than CreateAuction) plus the standing high bids afterwards equal the attached funds plus the standing high bids before; the same with no attached funds for every hook.",
  "every reachable state, call, hook and denom",
  "Equality over all states and batches.",
  [RA+"execute.rs:execute", RA+"sudo.rs:sudo", RA+"helpers.rs:settle_auction"])
p("auction: nobody bids on their own auction",
  "In every reachable state the high bidder of an auction is neither its seller nor the contract, and the contract is never a seller.",
  "every reachable state",
  "Invariant over all histories.",
  [RA+"execute.rs:execute_place_bid", RA+"execute.rs:execute_create_auction"])
p("auction: a sufficient limit settles everything",
  "If max_auctions_to_settle_per_block is at least the number of due auctions and there is no halt window, a successful end-block call settles every ended auction. (Expected to be violated: the u64 limit is cast with `as usize`, which truncates to 32 bits on wasm; a limit of 2^32 settles nothing.)",
  "every reachable state, every limit",
  "Needs a limit above 32 bits, native tests run on 64-bit.",
  [RA+"sudo.rs:sudo_end_block"])
p("v1: the bids query pages through all bids of a token",
  "Bids of a token are listed by bidder, and asking again with the last bidder as start_after reaches every bid once. (Expected to be violated: the raw bytes of start_after are compared with whole primary keys, which begin with a length, so every later page is empty.)",
  "every reachable state, token and page size",
  "Needs more bids on a token than one page holds.",
  [V1+"query.rs:query_bids"])
p("v1: the collections query lists each collection once",
  "Paging through Collections lists every collection with an ask exactly once. (Expected to be violated: it lists one entry per ask.)",
  "every reachable state and page size",
  "Needs two asks of one collection and a look at all pages.",
  [V1+"query.rs:query_collections"])
p("v1: order listings of an account are sorted and complete",
  "AsksBySeller, BidsByBidder, CollectionBidsByBidder and the two expiry-sorted queries list exactly the orders of that account (for asks: the active ones unless inactive ones are asked for) in index order, without duplicates, and paging from the beginning or from any offset (for the expiry-sorted ones: of a stored bid) reaches each later order exactly once.",
  "every reachable state, account, offset and page size",
  "All stores and offsets.",
  [V1+"query.rs:query_asks_by_seller", V1+"query.rs:query_bids_by_bidder", V1+"query.rs:query_bids_by_bidder_sorted_by_expiry", V1+"query.rs:query_collection_bids_by_bidder", V1+"query.rs:query_collection_bids_by_bidder_sorted_by_expiry"])
p("v1: paging by expiry survives removal of the last bid seen",
  "If the last bid of a page is withdrawn, the next page of BidsByBidderSortedByExpiration after it holds only bids that come after it. (Expected to be violated: a missing offset bid restarts the listing.)",
  "every reachable state, bid and page size",
  "Needs a removal between two pages.",
  [V1+"query.rs:query_bids_by_bidder_sorted_by_expiry"])
p("v1: AskCount counts the asks",
  "AskCount is the number of stored asks of the collection, active or not (below 2^32).",
  "every reachable state and collection",
  "All stores.",
  [V1+"query.rs:query_ask_count"])
p("v1: lookups return the order with that key",
  "Ask, Bid and CollectionBid return an order iff it is stored and has exactly the collection, token and bidder asked for; so each NFT has at most one ask, each bidder at most one bid per NFT and one bid per collection.",
  "every reachable state and key",
  "Invariant over all histories.",
  [V1+"query.rs:query_ask", V1+"query.rs:query_bid", V1+"query.rs:query_collection_bid"])
p("v1: encoded index keys sort by price, expiry, collection and token",
  "The byte order of encoded index keys is the numeric order of prices, seconds and token ids and the length-then-bytes order of collections, component by component.",
  "every pair of keys with u32 tokens, u128 prices, u64 seconds and addresses below 65536 bytes",
  "All pairs of keys.",
  [V1+"state.rs:asks", V1+"state.rs:bids", V1+"state.rs:collection_bids"])
p("v2: prices are positive and in the collection's denom",
  "Every successful call that places or changes an order (SetAsk, SellNft, UpdateAsk, SetBid, BuySpecificNft, UpdateBid, SetCollectionBid, BuyCollectionNft, UpdateCollectionBid) names a positive price in the denom set for that collection, or in the default denom if none is set.",
  "every state, caller and order call",
  "All nine calls, all configurations.",
  [V2+"helpers.rs:only_valid_price", V2+"execute.rs:execute"])
p("v2: orders are recorded as given, for the caller",
  "A successful order call either trades or records exactly the order described in the call: caller as creator, collection, token and details as given (for updates: creator, collection and token as before); every other order stays as it was.",
  "every reachable state and order call",
  "All calls and states, including frame conditions on all other orders.",
  [V2+"execute.rs:execute_set_ask", V2+"execute.rs:execute_set_bid", V2+"execute.rs:execute_set_collection_bid", V2+"execute.rs:execute_update_ask", V2+"execute.rs:execute_update_bid", V2+"execute.rs:execute_update_collection_bid"])
p("v2: admin calls do what they say and nothing else",
  "UpdateConfig stores exactly the given, valid configuration; UpdateCollectionDenom changes the denom of that collection only; SetListingFee and RemoveListingFee change the fee of that denom only; instantiation stores the given configuration and no orders. Configurations with shares above 100% or bad addresses are refused.",
  "every state and admin call",
  "All configurations and states.",
  [V2+"execute.rs:execute_update_config", V2+"execute.rs:execute_update_collection_denom", V2+"execute.rs:execute_set_listing_fee", V2+"execute.rs:execute_remove_listing_fee", V2+"instantiate.rs:instantiate"])
p("v2: an accepted call completes",
  "If a call by an account that owns the attached funds is accepted and any NFT it moves is on a conforming collection and held by, or approved for, the contract, all emitted messages execute: the transaction cannot fail later for lack of contract funds. Balances and ownership change exactly as the messages say.",
  "every execution, every call",
  "Needs solvency in all reachable states.",
  [V2+"execute.rs:execute", V2+"orders.rs:finalize_sale"])
p("v2: an open listing can be bought",
  "Between transactions, whoever owns the price of an open listing on a conforming collection can buy it with AcceptAsk, provided the royalty registry answers and the fees and royalty leave a split of the price: the call is accepted and completes, the recipient owns the token, the listing is gone, the split has been paid out and the buyer has paid exactly the price.",
  "every execution, listing and buyer",
  "Liveness in all reachable states.",
  [V2+"execute.rs:execute_accept_ask", V2+"orders.rs:finalize_sale"])
p("v2: an open bid can be sold into",
  "Between transactions, the holder of a token on a conforming collection - with an own listing of it or with the token approved - can sell it into any open bid on it or on its collection with AcceptBid / AcceptCollectionBid at or above their limit, if the sale can be settled: the call completes, the bidder's recipient owns the token, the bid is gone and its price has been paid out.",
  "every execution, bid and holder",
  "Liveness in all reachable states.",
  [V2+"execute.rs:execute_accept_bid", V2+"execute.rs:execute_accept_collection_bid"])
p("v2: orders can be placed",
  "Between transactions, a bid or collection bid with valid parameters below all matching listings, paid for, is accepted under a new id, and the bidder has paid exactly its price. The owner of an approved token on a conforming collection can list it above all matching bids for the listing fee; the contract then holds the token and the fee manager has the fee.",
  "every execution with fewer than 2^64 orders so far",
  "Liveness in all reachable states; id freshness over all histories.",
  [V2+"execute.rs:execute_set_bid", V2+"execute.rs:execute_set_collection_bid", V2+"execute.rs:execute_set_ask"])
p("auction: creation checks and record",
  "CreateAuction succeeds only for the reported owner of the token, with the contract reported as approved, trading started, no auction for the token, a duration within the bounds and a reserve price at or above the minimum of an accepted denom. It records exactly the requested auction for the caller, without bids; nothing else in the store changes.",
  "every state, caller and creation call",
  "All states and parameters, with frame condition.",
  [RA+"execute.rs:execute_create_auction", RA+"helpers.rs:only_no_auction", RA+"helpers.rs:validate_reserve_price"])
p("auction: governance calls do what they say",
  "UpdateParams sets exactly the given parameters; SetMinReservePrices adds exactly the given, new denoms and refuses to overwrite; UnsetMinReservePrices removes exactly the given, existing denoms; instantiation stores the given configuration and prices and no auctions. No call by an account changes the configuration, the prices or the record of halts.",
  "every state and governance call",
  "All lists of denoms and parameter combinations.",
  [RA+"sudo.rs:sudo_update_params", RA+"sudo.rs:sudo_set_min_reserve_prices", RA+"sudo.rs:sudo_unset_min_reserve_prices", RA+"instantiate.rs:instantiate"])
p("auction: AuctionsBySeller and MinReservePrices page completely",
  "AuctionsBySeller lists exactly the stored auctions of the seller, once each, by collection (shorter addresses first) and token, and MinReservePrices all denoms; both in either direction, and passing the last key as start_after continues without gaps or repetitions. Auction returns the stored auction of the token, Config and HaltManager what is stored.",
  "every reachable state, direction, offset and page size",
  "All stores, offsets and page sizes.",
  [RA+"query.rs:query_auctions_by_seller", RA+"query.rs:query_min_reserve_prices", RA+"query.rs:query_auction"])
p("auction: AuctionsByEndTime pages completely",
  "Paging through AuctionsByEndTime with a given end_time, passing the key of the last auction as start_after, lists every auction with a bid that ends at or after (descending: before) that second once, in order of end. (Expected to be violated: start_after only applies within the second end_time, so the next page repeats auctions unless end_time is advanced too.)",
  "every reachable state, end time, direction and page size",
  "Needs several pages and different end times.",
  [RA+"query.rs:query_auctions_by_end_time"])
p("auction: encoded keys sort by end time, collection and token",
  "The byte order of encoded primary keys and of entries of the end-time index is the order by end second, then collection (length, then bytes), then token, which the queries and the end-block hook rely on.",
  "every pair of keys with addresses below 65536 bytes and u64 seconds",
  "All pairs of keys.",
  [RA+"state.rs:auctions", RA+"sudo.rs:sudo_end_block", RA+"query.rs:query_auctions_by_end_time"])
p("auction: an accepted call or hook completes",
  "If a call by an account that owns the attached funds is accepted, and NFTs to be moved are on conforming collections (for a creation: approved), all emitted messages execute; likewise for the end-block hook and all settlements of its batch. Balances and ownership change exactly as the messages say.",
  "every execution, every call and hook",
  "Needs solvency and custody in all reachable states.",
  [RA+"execute.rs:execute", RA+"sudo.rs:sudo_end_block", RA+"helpers.rs:settle_auction"])
p("auction: a sufficient bid is accepted",
  "Before an auction has ended, any account other than its seller that attaches a positive amount of the auction's denom of at least the reserve price (first bid) or the high bid raised by the increment is accepted, the call completes and the account is the high bidder.",
  "every execution, auction, bidder and amount below 2^128 whose end time fits u64",
  "Liveness in all reachable states.",
  [RA+"execute.rs:execute_place_bid", RA+"state.rs:Auction::min_bid_coin"])
p("auction: an owner can create an auction",
  "The owner of an approved token on a conforming collection that trades and has no auction can create one with any reserve price and duration within the bounds by attaching exactly the fee; the call completes and the contract holds the token.",
  "every execution, token and owner",
  "Liveness in all reachable states.",
  [RA+"execute.rs:execute_create_auction"])
p("v1: listing checks and record",
  "SetAsk succeeds only for the reported owner of the token, with the marketplace reported as approved, trading started, the expiry in the configured range, a native price between the minimum and the maximum, a reservation at most for somebody else and only at a fixed price, and exactly the listing fee attached, which is burnt. It records exactly the requested listing for the caller; nothing else in the store changes and nothing else is paid.",
  "every state, caller and SetAsk call",
  "All states and parameters, with frame condition.",
  [V1+"execute.rs:execute_set_ask"])
p("v1: every other change of a listing",
  "UpdateAskPrice changes only the price, by the owner, while the listing is active and unexpired; RemoveAsk removes the listing of the caller's token; SyncAsk sets only the active flag to the reported approval and RemoveStaleAsk removes only listings whose token is gone, unapproved or expired, both for operators. A listing changes in no other way except a sale, which removes it.",
  "every state, caller and call",
  "All states and calls, with frame condition.",
  [V1+"execute.rs:execute_update_ask_price", V1+"execute.rs:execute_remove_ask", V1+"execute.rs:execute_sync_ask", V1+"execute.rs:execute_remove_stale_ask"])
p("v1: bid checks and record",
  "A bid or purchase pays at least the minimum price, does not name the caller as finder, and respects a listing: active, unexpired, not reserved for another; at a fixed price it never exceeds the price and buys exactly at it; at an auction it reaches the price and never buys. Without a listing only SetBid works. A call that does not buy records exactly the given bid for the caller, with an expiry in the range, and pays only the refund of the bid it replaces. Likewise for collection bids.",
  "every state, caller and bidding call",
  "All combinations of listing, bid and parameters.",
  [V1+"execute.rs:execute_set_bid", V1+"execute.rs:execute_set_collection_bid"])
p("v1: a bid that goes away without sale is refunded in full",
  "Whenever a standing bid or collection bid is changed or removed by a call other than its acceptance or its removal as stale, its full price is paid back to its bidder, first of all payments.",
  "every reachable state and call",
  "All call types that touch bids, including replacement during a purchase.",
  [V1+"execute.rs:execute_set_bid", V1+"execute.rs:execute_remove_bid", V1+"execute.rs:execute_reject_bid", V1+"execute.rs:execute_set_collection_bid", V1+"execute.rs:execute_remove_collection_bid"])
p("v1: every call balances",
  "For every call, the sum of open bids afterwards plus everything paid out equals the sum before plus the attached coins, except that a sale may leave at most one unit (rounding of the royalty). Only the native denom is ever received or paid.",
  "every state and call",
  "Conservation for all states and amounts.",
  [V1+"execute.rs:execute", V1+"execute.rs:payout"])
p("v1: hook contracts are told exactly what happened",
  "The notifications emitted by a call are one per registered contract of the kind, for the created, changed or deleted listing, the created or deleted bid, or the sale, with its collection, token, price and parties. Nothing else is notified: not collection bids (no hook can be registered), nor the removal of a listing or bid by a sale or a replacement.",
  "every reachable state and call, any list of hooks",
  "All calls and hook lists.",
  [V1+"execute.rs:prepare_ask_hook", V1+"execute.rs:prepare_bid_hook", V1+"execute.rs:prepare_sale_hook", V1+"execute.rs:prepare_collection_bid_hook"])
p("v1: BuyNow buys or fails",
  "A successful BuyNow or BuyForToken hands the token to the caller or named recipient. (Expected to be violated: with less than the price, or a listing of type auction, the call succeeds and stores a bid, locking the coins.)",
  "every reachable state and BuyNow / BuyForToken call",
  "Depends on the listing in the store at execution time.",
  [V1+"execute.rs:execute_set_bid"])
p("v1: deployment and governance do what they say",
  "Instantiation stores the given parameters, the given operators once each, at most the given sale hook and no orders, and rejects fees above 100%, unordered ranges and a stale duration in blocks. Each operator or hook message adds or removes exactly that address in its list, which never contains an address twice, and changes nothing else; for valid addresses it fails only on duplicates and absentees. UpdateParams changes no order and no hook and enforces the same bounds.",
  "every reachable state and governance message",
  "Invariant over all histories of governance messages.",
  [V1+"execute.rs:instantiate", V1+"sudo.rs:sudo_update_params", V1+"sudo.rs:sudo_add_operator", V1+"sudo.rs:sudo_remove_operator", V1+"sudo.rs:sudo_add_ask_hook"])
p("v1: UpdateParams can replace the operators",
  "A successful UpdateParams that names operators makes exactly those the operators. (Expected to be violated: the field is ignored, without error.)",
  "every reachable state and UpdateParams message",
  "All messages and states.",
  [V1+"sudo.rs:sudo_update_params"])
p("v1: an accepted call completes",
  "If the contract accepts a call and the tokens handed over are on conforming collections that approve the marketplace, all emitted messages execute, and balances and ownership change exactly as the messages say. (Expected to be violated: a royalty, proceeds, or operator's reward that rounds to zero makes a bank send of zero coins, which the bank refuses; removing a small stale bid can thus never succeed.)",
  "every execution and call",
  "Needs solvency in all reachable states and the rounding of every amount.",
  [V1+"execute.rs:payout", V1+"execute.rs:execute_remove_stale_bid", V1+"execute.rs:execute_remove_stale_collection_bid"])
p("v1: an open listing can be bought",
  "Whoever owns the price of an active, unexpired fixed-price listing open to them can buy it with SetBid, BuyNow or BuyForToken, if the seller still owns the token, the collection conforms and approves the marketplace, the price is not below the current minimum and no part of the split rounds to zero: the call completes, the listing is gone and the recipient owns the token.",
  "every execution, listing and buyer",
  "Liveness in all reachable states.",
  [V1+"execute.rs:execute_set_bid", V1+"execute.rs:finalize_sale"])
p("v1: the owner can accept a standing bid",
  "The owner of a token on a conforming collection that trades and approves the marketplace can accept any unexpired bid for it or for its collection of which no part of the split rounds to zero: the call completes and the bidder owns the token.",
  "every execution, bid and owner",
  "Liveness in all reachable states.",
  [V1+"execute.rs:execute_accept_bid", V1+"execute.rs:execute_accept_collection_bid"])
p("v1: orders can be placed",
  "The owner of an approved token that trades can list it for exactly the listing fee with any price, expiry and finder's fee within the bounds; anybody can bid for a token (below a fixed-price listing, at or above an auction listing, or without listing) or for a collection. The calls complete and the order is in the store.",
  "every execution, account and order",
  "Liveness in all reachable states.",
  [V1+"execute.rs:execute_set_ask", V1+"execute.rs:execute_set_bid", V1+"execute.rs:execute_set_collection_bid"])
p("v1: owners can withdraw and reprice listings and reject bids",
  "The owner of a token on a conforming collection can, without attaching coins, remove the token's listing in whatever condition it is, change the price of an active unexpired listing to anything from the minimum up, and reject any bid on the token: the calls are accepted and complete, and a rejected bidder has the price back.",
  "every execution, owner, listing and bid",
  "Liveness in all reachable states.",
  [V1+"execute.rs:execute_remove_ask", V1+"execute.rs:execute_update_ask_price", V1+"execute.rs:execute_reject_bid"])
p("v1: operators can clean up",
  "An operator can set the activity of a listing to the reported approval if it differs, remove a listing that has expired or whose token is reported gone or unapproved, and remove a bid or collection bid once the stale duration has passed since its expiry if the reward is at least one unit and less than the bid: the calls complete, operator and bidder have their shares.",
  "every execution, operator and order",
  "Liveness in all reachable states.",
  [V1+"execute.rs:execute_sync_ask", V1+"execute.rs:execute_remove_stale_ask", V1+"execute.rs:execute_remove_stale_bid", V1+"execute.rs:execute_remove_stale_collection_bid"])
p("v2: records and indexes are one consistent store",
  "In the contract's flat key-value store, for every history of calls: reading a record's key gives exactly the record last saved under that id and nothing once it is removed; every record has exactly one entry in each of its indexes, at its current index fields, and there is no other entry; no two items, maps or indexes use the same key; so each listing that walks an index and follows its entries returns the records that the current orders of that collection, denom or creator have, in the stated order, and never fails on a dangling entry. Every accepted call can be carried out on the store unless a key component has 65536 bytes or more.",
  "every history of instantiate, migrate and calls; every listing and option",
  "All sequences of saves, updates and removals on all keys; disjointness of the byte encodings of all keys.",
  [V2+"state.rs:asks", V2+"state.rs:bids", V2+"state.rs:collection_bids", V2+"state.rs:AskIndices", V2+"state.rs:BidIndices", V2+"state.rs:CollectionBidIndices", V2+"query.rs:query_asks_by_collection_denom"])
p("auction: records and indexes are one consistent store",
  "In the auction contract's flat key-value store, for every history of calls, governance messages and block hooks: reading an auction's key gives exactly the auction last saved and nothing once it is settled or cancelled; every auction has exactly one entry in the seller index and one in the end time index, at its current end second (u64::MAX before the first bid), and there is no other entry; no two items, maps or indexes use the same key; so the listings by seller and end time, the list of minimum prices, and the end-block hook's choice of due auctions read exactly the current auctions, in order, and never fail on a dangling entry. Every accepted call can be carried out on the store unless an address has 65536 bytes or more.",
  "every history of instantiate, migrate, calls and hooks; every listing and option",
  "All sequences of saves, updates and removals on all keys; disjointness of the byte encodings of all keys.",
  [RA+"state.rs:auctions", RA+"state.rs:AuctionIndexes", RA+"query.rs:query_auctions_by_end_time", RA+"query.rs:query_auctions_by_seller", RA+"sudo.rs:sudo_end_block"])
p("v1: records and indexes are one consistent store",
  "In the v1 marketplace's flat key-value store, for every history of calls, governance messages and migrations: reading the key of a listing, bid or collection bid gives exactly the record last saved there and nothing once it is removed; every record has exactly one entry in each of its indexes, at its current fields, and there is no other entry; no two items, maps or indexes use the same key; so every paged query (by collection, price, seller, bidder, token, expiry; ascending or descending; the list of collections; the count of listings) reads exactly the current orders, in order, and never fails on a dangling entry. Every accepted call can be carried out on the store unless an address has 65536 bytes or more.",
  "every history of instantiate, migrate, calls and sudo messages; every query and option",
  "All sequences of saves, updates and removals on all keys; disjointness of the byte encodings of all keys.",
  [V1+"state.rs:asks", V1+"state.rs:bids", V1+"state.rs:collection_bids", V1+"state.rs:AskIndicies", V1+"state.rs:BidIndicies", V1+"state.rs:CollectionBidIndicies", V1+"query.rs:query_collections", V1+"query.rs:query_bids_by_bidder_sorted_by_expiry"])
p("v2: the events tell the whole order book",
  "Someone who sees nothing but the events of the contract's responses, from instantiation on, and applies them in order (set- opens an order, update- replaces its terms, remove- closes it, finalize-sale closes the ask and the bid it names, the configuration events replace configuration, collection denom and listing fee) knows at every moment the configuration, the collection denoms, the listing fees and every open ask, bid and collection bid with creator, collection, token, price, recipient and finder, and nothing else. No event is missing, malformed, or contradicts what the earlier ones said. This needs that denoms do not start with a digit, because prices are written as amount followed by denom.",
  "every history of instantiate and calls",
  "All sequences of calls, including those that match, update and refund; the claim is about the accumulation of all events.",
  [V2+"events.rs:AskEvent", V2+"events.rs:BidEvent", V2+"events.rs:CollectionBidEvent", V2+"events.rs:ConfigEvent", V2+"events.rs:CollectionDenomEvent", V2+"events.rs:ListingFeeEvent", V2+"orders.rs:get_event_attrs", V2+"helpers.rs:finalize_sale", V2+"instantiate.rs:instantiate"])
p("v2: the sale event reports what the sale does",
  "Every successful call emits exactly one event, and this is finalize-sale if and only if the call trades. Its collection, token_id and nft_recipient are those of the only NFT transfer among the messages; each of protocol, maker, taker, royalty and seller gives the amount of the bank send made for that purpose and is absent if there is none; these amounts add up to price, in the denom the event names; protocol goes to the fee manager, seller to seller_recipient, royalty to the recipient of the collection's royalty, maker to the finder named by the order that was there first.",
  "every reachable state and successful call",
  "All ways in which a call can trade, all fee settings and all combinations of finders and royalties.",
  [V2+"helpers.rs:finalize_sale", CM+"sale.rs:NftSaleProcessor::build_payments", V2+"execute.rs:execute_set_ask", V2+"execute.rs:execute_accept_collection_bid"])
p("auction: the events tell every open auction",
  "Someone who sees nothing but the events of the contract's responses, from instantiation on, and applies them in order knows at every moment the configuration except for the maximum duration, the minimum reserve prices, and for every open auction seller, reserve price, funds recipient, end time and standing high bid, and nothing else. No event is missing, malformed, or contradicts what the earlier ones said: place-bid names the seller, says first_bid exactly if there was no bid, and names the previous bidder and bid; settle-auction names the standing bid. This needs that denoms do not start with a digit, because prices are written as amount followed by denom. (Not known: the duration of an auction and hence, before the first bid, when it will end.)",
  "every history of instantiate, calls and hooks",
  "All sequences of calls and blocks; the claim is about the accumulation of all events, including those of batches of settlements.",
  [RA+"execute.rs:execute_create_auction", RA+"execute.rs:execute_update_reserve_price", RA+"execute.rs:execute_cancel_auction", RA+"execute.rs:execute_place_bid", RA+"helpers.rs:settle_auction", RA+"sudo.rs:sudo_update_params", RA+"sudo.rs:sudo_set_min_reserve_prices", RA+"sudo.rs:sudo_unset_min_reserve_prices", RA+"instantiate.rs:instantiate"])
p("auction: events agree with the messages",
  "Every successful call emits exactly one event, of the type that goes with the call and naming its token. The place-bid event names the bidder, the coins paid, and a previous bid exactly if one is refunded, in which case the only message sends that amount to that bidder; its auction_end_time is the stored end. The settle-auction events of a SettleAuction call or of the end-block hook announce exactly the transfers of tokens (token and winner, in order), and their amounts add up to exactly the money paid out in each denom.",
  "every reachable state, successful call and end of block",
  "All batches of settlements and all states.",
  [RA+"execute.rs:execute_place_bid", RA+"helpers.rs:settle_auction", RA+"sudo.rs:sudo_end_block"])
p("v1: the events tell every open order",
  "Someone who sees nothing but the events of the v1 marketplace's responses, from instantiation on, and applies them in order, each for what its type says (set- places an order, update- changes it, remove-, accept- and reject- close it, finalize-sale closes the listing), knows at every moment every open listing (sale type, seller, price, reservation, expiry, activity), every open bid and collection bid (price, expiry), the operators and the hooks, and nothing else. No event is missing, malformed, or contradicts what the earlier ones said. (Violated: a purchase emits set-bid like a bid that stays open. It does hold for someone who looks at all events of a response and does not take a set-bid next to a finalize-sale for an open bid.)",
  "every history of calls, sudo messages and failed hooks",
  "All sequences of calls; the claim is about the accumulation of all events.",
  [V1+"execute.rs:execute_set_ask", V1+"execute.rs:execute_set_bid", V1+"execute.rs:finalize_sale", V1+"execute.rs:execute_accept_bid", V1+"execute.rs:execute_sync_ask", V1+"execute.rs:execute_remove_stale_ask", V1+"execute.rs:reply", V1+"sudo.rs:sudo"])
p("v1: sale events report what the sale does",
  "Every successful call ends its events with one of the type that goes with the call; before it come a finalize-sale, preceded by a royalty-payout if a royalty is paid, if and only if the call hands over a token, and nothing otherwise. The finalize-sale names exactly the token, seller, buyer, price and recipient of the terms the listing or the accepted bid had and of the transfer that is made; the royalty-payout names the recipient and the exact amount (price times share, rounded down) that is sent, and appears exactly if the collection reports a share other than zero.",
  "every reachable state and successful call",
  "All ways in which a call can trade, all royalties.",
  [V1+"execute.rs:finalize_sale", V1+"execute.rs:payout"])
p("v1: refunds and rewards follow from the events",
  "Someone who knows the open orders can tell from the events of a call alone who is paid back what: set-bid and set-collection-bid refund the bidder's former bid, remove-bid, reject-bid and remove-collection-bid refund the bid named, the removal of a stale bid splits it between the bidder and the operator by the reward named. The bank sends of the response are exactly these, in order, followed by those of the sale if the events contain one, among which are the royalties announced.",
  "every reachable state and successful call",
  "All calls in all states.",
  [V1+"execute.rs:execute_set_bid", V1+"execute.rs:execute_remove_bid", V1+"execute.rs:execute_reject_bid", V1+"execute.rs:execute_set_collection_bid", V1+"execute.rs:execute_remove_stale_bid", V1+"execute.rs:execute_remove_stale_collection_bid"])
p("v1: the last event says who asked for what",
  "The last event of every successful call names the token or collection of the message, the bidder (the caller, or the one the message names) and, where there is one, the seller and the kind of sale; the removal by an operator names the operator, while the removal by the owner does not; sync-ask says whether the approval is there now; remove-stale-ask says truly whether the listing had expired, has an owner and has an approval; a royalty-payout names the collection of the call. When a hook contract fails, the reply succeeds and reports the failure of a hook of exactly that kind, with its error.",
  "every reachable state, successful call and failing hook",
  "All calls, all answers of the collection contract.",
  [V1+"execute.rs:execute_set_ask", V1+"execute.rs:execute_set_bid", V1+"execute.rs:execute_sync_ask", V1+"execute.rs:execute_remove_stale_ask", V1+"execute.rs:execute_remove_stale_bid", V1+"execute.rs:payout", V1+"execute.rs:reply"])
p("auction: the events tell halts and explain postponements",
  "Someone who reads the responses one after the other knows at every moment the chain halts that the contract remembers. With that and with what the earlier events told, every later event can be predicted: an auction is settled or postponed only when its known end has passed; it is postponed if that end lies strictly inside a known halt and settled otherwise; a postponed auction ends the known postponement after the block. A halt is announced at the start of a block exactly if the time since the last block has reached the threshold; it starts at the last block and ends the buffer after this one.",
  "every history of instantiate, calls and hooks",
  "All sequences of blocks, halts and auctions; forgetting a halt depends on the first auction due in each block.",
  [RA+"sudo.rs:sudo_begin_block", RA+"sudo.rs:sudo_end_block", RA+"helpers.rs:settle_auction", RA+"state.rs:HaltManager"])
p("v1: migrations only go forward",
  "Code of the v1 marketplace takes over a deployment exactly if the recorded contract name is its own and the recorded version parses and is not later than its own. However often a deployment is migrated, its contract name stays and its version never decreases; at every moment the record names the contract and the version of the code that runs; and migrations change nothing else: every state of a deployment with migrations is one that can be reached without.",
  "every life of a deployment with calls, sudo messages and migrations, every version order",
  "All sequences of calls and migrations and all version strings.",
  [V1+"execute.rs:migrate", V1+"execute.rs:instantiate"])
p("v2, auction: migrations only go forward",
  "Code of marketplace v2 (of the reserve auction) takes over a deployment only if the recorded contract name is its own and the recorded version is not later than its own. (Violated: migrate checks nothing, it takes over later versions and other contracts. What holds: the record is always exactly name and version of the code that runs and the first event of the deployment names the code deployed, and migrations change nothing else.)",
  "every life of a deployment with calls, hooks and migrations",
  "All sequences of calls and migrations.",
  [V2+"migrate.rs:migrate", RA+"migrate.rs:migrate", V2+"instantiate.rs:instantiate", RA+"instantiate.rs:instantiate"])
p("v2: the account holds exactly the bids",
  "At every moment of every history of the contract's account (also in the middle of a call, with messages still pending) it holds, in every denom, exactly what was there at instantiation, plus the coins of the open bids and collection bids, plus what the pending messages pay, plus coins that others sent to it without a call, plus coins attached to AcceptBid and AcceptCollectionBid calls (C05) — not one unit more or less. In particular, if nobody sends coins that way, it holds exactly the open bids.",
  "every history of fewer than 2^64-1 steps, with re-entrant calls, and every denom",
  "The claim is about the sum over all calls of a history; a test sees the account after a few.",
  [V2+"execute.rs:execute_set_bid", V2+"execute.rs:execute_update_bid", V2+"execute.rs:execute_remove_bid", V2+"execute.rs:execute_accept_ask", V2+"execute.rs:execute_set_collection_bid", V2+"execute.rs:execute_accept_collection_bid", V2+"helpers.rs:finalize_sale"])
p("auction: the account holds exactly the high bids",
  "At every moment of every history of the contract's account (also in the middle of a call) it holds, in every denom, exactly what was there at instantiation, plus the standing high bids, plus what the pending messages pay, plus coins that others sent to it without a call, plus what creators of auctions attached beyond the creation fee (C42).",
  "every history of calls, hooks and re-entrant calls, every denom",
  "The claim is about the sum over all calls and blocks of a history.",
  [RA+"execute.rs:execute_create_auction", RA+"execute.rs:execute_place_bid", RA+"helpers.rs:settle_auction", RA+"sudo.rs:sudo_end_block"])
p("v1: the account holds exactly the bids and the dust of sales",
  "At every moment of every history of the contract's account (also in the middle of a call) it holds, in the native denom, what was there at instantiation, plus the open bids and collection bids, plus what the pending messages pay, plus coins that others sent to it without a call, plus an amount that is at most the number of sales so far (C46: a sale can leave one unit). In every other denom it holds what was there and what others sent without a call.",
  "every history of calls, sudo messages and re-entrant calls",
  "The claim is about the sum over all calls of a history, with all roundings.",
  [V1+"execute.rs:execute_set_bid", V1+"execute.rs:execute_remove_bid", V1+"execute.rs:execute_remove_stale_bid", V1+"execute.rs:execute_set_collection_bid", V1+"execute.rs:payout"])
p("auction: an ended auction waits its turn and no longer",
  "If the end-block hook may settle at least L auctions whenever it runs, then the number of auctions that had ended by the second of some time T and still wait falls by L with every run, whatever calls, governance changes, bids and new auctions happen in between. Hence an auction waits for at most (number of auctions that ended in or before its second)/L runs: then it is sold or has been postponed to a later second. Later auctions cannot get ahead of it, and settling calls by others only shorten the wait.",
  "every history after the second of T, every L",
  "The claim is about all histories of any number of blocks with interleaved calls.",
  [RA+"sudo.rs:sudo_end_block", RA+"helpers.rs:settle_auction", RA+"execute.rs:execute_place_bid", RA+"state.rs:AuctionIndexes"])
p("v2: collections do not affect each other",
  "A call about a collection (naming it, or naming one of its asks or bids) does exactly what it would do in a marketplace in which no other collection has an order or a denom of its own: it fails with the same error or it succeeds with the same messages and the same changes of the collection's orders; and a successful call leaves the orders and the denom of every other collection and the configuration as they are. Hence the orders of a collection after any history are those of a history in which only the calls about this collection and the configuration happened; other collections show only in the counter that ids of bids are made of.",
  "every reachable state, every call (failing ones included), every history, every pair of collections",
  "All states: order ids, indexes and prefixes of keys of all collections live in the same store, and a collision or a range that reaches too far shows only for particular addresses and token ids.",
  [V2+"execute.rs:execute", V2+"state.rs:AskIndices", V2+"state.rs:BidIndices", V2+"state.rs:CollectionBidIndices", V2+"orders.rs:Ask", V2+"orders.rs:Bid", V2+"orders.rs:CollectionBid"])
p("auction: a call depends on its own auction only; the end-block hook only settles",
  "A call about a token does exactly what it would do if no other token were under auction: the same error, or the same messages and the same change of the auction; all other auctions, the configuration and the halts stay. Governance and the begin-block hook do not look at auctions. The end-block hook does exactly what SettleAuction calls (by anyone) for some different tokens would do one after the other in the same block, with the same messages in the same order; besides it may forget the oldest halt. Hence the auctions of a token after any history are those of a history in which no other token was ever put up.",
  "every reachable state, every call (failing ones included), every hook, every history",
  "All states and histories; the hook works on a list fetched before the first settlement.",
  [RA+"execute.rs:execute", RA+"sudo.rs:sudo_end_block", RA+"helpers.rs:settle_auction", RA+"state.rs:auctions"])
p("v1: a call depends on and changes only the orders it names",
  "The outcome of a call (its error or its messages and changes) depends on no other orders than the listing of the token it names, the bid of the caller or of the bidder it names, and the collection bid of the caller or of the bidder it names; all others could be removed without a difference. A successful call changes no other order. Hence the orders of a collection after any history are those of a history in which only calls about this collection happened. Governance does not depend on orders.",
  "every state, every call (failing ones included), every set of orders, every history",
  "All states and all sets of other orders.",
  [V1+"execute.rs:execute", V1+"state.rs:asks", V1+"state.rs:bids", V1+"state.rs:collection_bids"])
p("v2: the books of every account balance",
  "For every account and every denom, over every history: what it attached to its calls plus what it earned by trades (its part of prices as seller, recipient of the proceeds, finder or recipient of the royalty, the fees if it is the fee manager) is exactly what is in its open bids, plus what the contract sent it, plus what it spent (listing fees for its own listings and the prices of what it bought), plus coins it attached to AcceptBid and AcceptCollectionBid (C05). The prices and parts are those that the two orders of each trade and the configuration determine. In particular bidding is free: who only placed, changed and withdrew bids none of which was filled has all its coins back or in its open bids.",
  "every history of fewer than 2^64-1 calls by anybody, every account, every denom",
  "The claim is about one account in histories in which many accounts trade with each other, with refunds triggered by calls of others.",
  [V2+"execute.rs:execute_set_bid", V2+"execute.rs:execute_update_bid", V2+"execute.rs:execute_remove_bid", V2+"execute.rs:execute_accept_ask", V2+"execute.rs:execute_update_collection_bid", V2+"execute.rs:execute_accept_collection_bid", V2+"helpers.rs:finalize_sale"])
p("auction: a bidder gets back every bid it does not win by",
  "For every account and every denom, over every history of calls and hooks: what it attached to its bids is exactly what is in its standing high bids, plus what it was sent when it was outbid, plus the bids it won by; and a bid is won only if the token is sent to the bidder in the same call or hook. So who is never sent a token has all its coins back or in standing high bids. Besides bids only the creation of an auction takes coins.",
  "every history of calls and hooks, every account, every denom",
  "The claim is about one account in histories with any number of auctions, bidders and settlements.",
  [RA+"execute.rs:execute_place_bid", RA+"execute.rs:execute_cancel_auction", RA+"helpers.rs:settle_auction", RA+"sudo.rs:sudo_end_block"])
p("v1: the books of every account balance",
  "For every account, over every history: the ustars it attached to its calls plus what it earned (the proceeds of sales as seller or named recipient, finder's fees, royalties, rewards for removing stale bids) is exactly what is in its open bids and collection bids, plus what the contract sent it, plus what it spent (listing fees, the prices of what it bought, the rewards taken from its stale bids). Proceeds, finder's fee and royalty of a sale are those that its terms, the stored rates and the collection's royalty determine, to the unit. No call takes or sends any other denom. In particular, who only bids, and whose bids are neither accepted nor removed as stale, has everything back or in open bids.",
  "every history of calls and sudo messages, every account",
  "The claim is about one account in histories in which many accounts bid, sell, find and clean up.",
  [V1+"execute.rs:execute_set_bid", V1+"execute.rs:execute_remove_bid", V1+"execute.rs:execute_reject_bid", V1+"execute.rs:execute_accept_bid", V1+"execute.rs:execute_set_collection_bid", V1+"execute.rs:execute_remove_stale_bid", V1+"execute.rs:execute_remove_stale_collection_bid", V1+"execute.rs:payout"])
p("v2: every order and both sides of every trade were asked for by the account concerned",
  "Every open ask, bid and collection bid has exactly the terms (token or collection, price, recipient, finder) that some call of its own creator gave it, and no call since has touched it. In every trade one side asked for it by the call that makes the trade, the other by that call or by the one that gave its order the terms it has had ever since; the seller gets no less than the price it named there and the proceeds go to the recipient it named or to itself, the buyer pays no more than the price it named and the token goes to the recipient it named or to itself. AcceptCollectionBid sells the token it names.",
  "every history of fewer than 2^64-1 calls by anybody, every open order, every trade",
  "Authorship over arbitrarily long histories in which others update, match and withdraw.",
  [V2+"execute.rs:execute_set_ask", V2+"execute.rs:execute_update_ask", V2+"execute.rs:execute_set_bid", V2+"execute.rs:execute_update_bid", V2+"execute.rs:execute_accept_bid", V2+"execute.rs:execute_accept_collection_bid", V2+"orders.rs:Ask"])
p("v1: every order was given its terms by its own account",
  "Every listing has the terms, including the price, that calls of its seller gave it; every bid and collection bid has the terms and the price that its bidder attached, untouched since. In every sale one side asked for it by the call itself and the other by the call that gave the listing or the bid its terms.",
  "every history of calls and sudo messages, every open order, every sale",
  "Authorship over arbitrarily long histories, in which tokens also change hands outside of the contract.",
  [V1+"execute.rs:execute_set_ask", V1+"execute.rs:execute_update_ask_price", V1+"execute.rs:execute_set_bid", V1+"execute.rs:execute_set_collection_bid", V1+"execute.rs:execute_accept_bid"])
p("v1: a seller that accepts a bid is paid on the price it has seen",
  "If a bid is open and the token's owner then sends AcceptBid naming token and bidder, the sale is made at no less than the price of that bid, whatever calls of others are processed in between.",
  "every reachable state, every sequence of calls in between",
  "All interleavings of calls.",
  [V1+"execute.rs:execute_accept_bid", V1+"execute.rs:execute_accept_collection_bid", V1+"execute.rs:execute_set_bid"])
p("auction: the winner made the highest of all bids",
  "Every open auction was created by its seller with its duration and payee, and its reserve price is the last one its seller named. Of all bids made on it since, each is one coin of the reserve's denom, no less than the reserve, not the seller's, and higher than all before it; the recorded high bid is the last. An auction is closed only by its seller's cancellation when there has been no bid, or with the token going to the account that made the highest of all its bids.",
  "every history of calls and hooks, every auction",
  "The claim is about all bids of an auction of any length, mixed with hooks, postponements and other auctions.",
  [RA+"execute.rs:execute_create_auction", RA+"execute.rs:execute_update_reserve_price", RA+"execute.rs:execute_place_bid", RA+"helpers.rs:settle_auction", RA+"sudo.rs:sudo_end_block"])
p("v2: a listing fee of zero makes listing free",
  "Whatever can be listed for the listing fee can, once the admin has set the fee of that denom to zero, be listed without attaching coins. (And a change to any other fee changes what has to be attached and nothing else; every fee paid was set by the admin and not touched since.)",
  "every reachable state, every listing, every fee",
  "About all states and all fees; tests use a positive fee throughout.",
  [V2+"execute.rs:execute_set_listing_fee", V2+"execute.rs:execute_remove_listing_fee", V2+"execute.rs:execute_set_ask"])
p("v2: at the same price the earlier order is served first",
  "A seller's SetAsk, SellNft or UpdateAsk does not sell to a bid while a bid of the same price on the same token that was made earlier is open; likewise for collection bids and for listings.",
  "every history, every two orders of the same price",
  "Depends on the hashes that serve as order ids; any single test sees one outcome.",
  [V2+"orders.rs:match_with_bid", V2+"orders.rs:match_with_ask", V2+"helpers.rs:generate_id", V2+"state.rs:bids"])
p("auction: when an auction ends",
  "The first bid starts the clock. An auction with a bid is settled only if its duration has passed since the first bid and, for every later bid, the extension configured when that bid was made; and only if its end is not within a known halt. The recorded end is never later than one of these makes it: first bid plus duration, time of a later bid plus extension, or time of an attempt to settle it after a halt plus the postponement.",
  "every history of calls and hooks, every auction",
  "About all bids and halts in the life of an auction, with the configuration changing meanwhile.",
  [RA+"execute.rs:execute_place_bid", RA+"execute.rs:execute_settle_auction", RA+"helpers.rs:settle_auction", RA+"sudo.rs:sudo_end_block"])
p("auction: keeping an auction open costs geometrically",
  "Without halts of the chain, every bid but the first prolongs an auction by at most the configured extension, and raises the price by at least the configured increment and at least one unit. So if the extension was at most E seconds and the increment at least I whenever something was called since an auction was opened, and the auction now ends more than m extensions after its duration has run out, its high bid is at least the reserve price times (1+I)^(m+1), and at least the reserve price plus m+1.",
  "every history of calls and hooks, every auction, every E, I and m",
  "An unbounded number of bids; the claim is about growth, and about configurations that change meanwhile.",
  [RA+"execute.rs:execute_place_bid", RA+"state.rs:Auction", RA+"sudo.rs:sudo_update_params", RA+"helpers.rs:settle_auction"])
p("auction: the order of calls about different tokens does not matter",
  "A list of calls, some of which may fail, can be put into any other order in which the calls about each token keep theirs: every call gets the same reply (error or messages), and the contract ends with the same auctions and everything else the same. In particular two successful calls about different tokens can be swapped.",
  "every reachable state, every list of calls, every such order",
  "All lists of calls and all their orders.",
  [RA+"execute.rs:execute", RA+"state.rs:auctions"])
p("v1: the order of calls about different orders does not matter",
  "Two calls that have no listing, bid or collection bid in common get the same replies in either order, whether they succeed or not, and leave the same orders and everything else behind. A list of calls can be put into any other order in which the calls about each collection keep theirs, with the same replies and the same result.",
  "every state, every two such calls, every list of calls and every such order",
  "All lists of calls and all their orders.",
  [V1+"execute.rs:execute", V1+"state.rs:asks", V1+"state.rs:bids", V1+"state.rs:collection_bids"])
p("v2: the order of calls about different collections does not matter",
  "Two successful calls about different collections can be swapped: they succeed in the other order, with the same messages, and leave the same orders under the same ids and everything else the same.",
  "every reachable state, every two calls about different collections",
  "All pairs of calls in all states; the calls share a counter.",
  [V2+"execute.rs:execute", V2+"state.rs:NONCE", V2+"helpers.rs:generate_id", V2+"orders.rs:Bid"])
p("all: contracts on one chain do not disturb each other",
  "Any number of deployments of the three contracts, under different addresses, run on one chain, with their messages interleaved as the chain interleaves them. What each of them sees is one of its own runs, so that every property of single contracts holds there too. Whenever anybody can make a call, a token of a conforming collection that one of them keeps (listed in v2, under auction) belongs to that contract; no token is kept by two of them. At every point the balance of each covers what it keeps for bidders and what it has still to pay.",
  "every number and kind of deployments, every interleaved run, every token",
  "All interleavings of all runs of several contracts.",
  [V2+"execute.rs:execute", RA+"execute.rs:execute", V1+"execute.rs:execute"])
p("all: a token kept by one contract cannot be sold through another",
  "A token of a conforming collection that is listed in v2 or under auction cannot be listed, auctioned or sold through any other deployment of the three contracts at the same time: whoever makes the call, it fails.",
  "every number and kind of deployments, every interleaved run, every caller and call that offers the token",
  "All interleavings of all runs of several contracts and all calls.",
  [V2+"execute.rs:execute_set_ask", RA+"execute.rs:execute_create_auction", V1+"execute.rs:execute_set_ask", V1+"execute.rs:only_owner"])
p("v2: more open bids are no worse for a seller",
  "A call by which a seller sells into an open bid (SetAsk, SellNft, UpdateAsk), made in a state with the same settings and listings and with further bids, sells too, at a price that is no lower, and pays the seller no less. (Violated: each fee is rounded up for itself, so that a higher price can leave less. The price is no lower, and the seller gets at most 3 base units less.)",
  "every two reachable states of which one has at least the bids of the other, every seller's call",
  "All pairs of states and all prices; the effect is one of rounding.",
  [V2+"orders.rs:match_with_bid", V2+"helpers.rs:finalize_sale", V2+"helpers.rs:divide_protocol_fees", CM+"sale.rs:NftSaleProcessor"])
p("v2: more listings are no worse for a buyer of any token of the collection",
  "A call for any token of a collection (SetCollectionBid, BuyCollectionNft, UpdateCollectionBid) that is accepted is also accepted when further tokens of the collection are listed, and does not pay more. (Violated: a listing whose price does not cover the rounded fees, such as 1 base unit, is matched first and fails. As long as it is open all such calls fail, whoever makes them.)",
  "every two reachable states of which one has at least the listings of the other, every such call",
  "All pairs of states and all calls; the listing that does the damage may be anybody's.",
  [V2+"orders.rs:match_with_ask", V2+"helpers.rs:only_valid_price", V2+"helpers.rs:finalize_sale", V2+"execute.rs:execute_set_collection_bid"])
p("v2: ids are as good as the hash is on what has been hashed",
  "The properties that need distinct order ids hold for a hash of fixed length, provided only that the strings hashed in the course of the history (those of the calls made) have different hashes: such a history is one of a marketplace whose hash has no collisions at all. In particular coins are conserved in every call, orders change only by their creators or by being filled, new bids get unused ids, the books of every account balance, both sides of a trade have asked for it and the account holds exactly what it owes. Without the assumption coins can get lost.",
  "every hash function, every history in which no two strings hashed collide, every call",
  "All hash functions and all histories.",
  [V2+"helpers.rs:generate_id", V2+"orders.rs:Ask", V2+"orders.rs:Bid", V2+"orders.rs:CollectionBid", V2+"execute.rs:execute"])
p("auction: a bid does not get stuck because of whom the seller has named as payee",
  "On a chain whose bank refuses payments to some addresses (module accounts): from any point in the life of an auction with a bid, things can go on so that the auction is settled and the high bidder gets the token. (Violated: the seller can name any valid address to receive the proceeds. If it is refused, nobody can settle the auction, neither by a call nor by the hook, and the hook fails for the whole batch; the high bidder has neither coins nor token until somebody else bids more. If no payee is refused, anybody can settle it.)",
  "every set of refused addresses, every run, every auction with a bid of a conforming collection",
  "Tests run on a bank that accepts all payments; the claim is about everything that can happen afterwards.",
  [RA+"execute.rs:execute_create_auction", RA+"helpers.rs:settle_auction", RA+"sudo.rs:sudo_end_block"])
p("all: refused payments stop only the call that makes them, and nobody is locked out",
  "On a chain whose bank refuses payments to some addresses, a call that the contract accepts completes if and only if none of its payments goes to such an address. Whatever recipients and finders others have named: whoever has an open bid or collection bid (v1 and v2) can withdraw it and gets the coins back, whoever has a listing (v2) or an auction without bids can withdraw it and gets the token back, and a higher bid on an auction goes through and refunds the bidder before.",
  "every set of refused addresses, every run, every open order",
  "Tests run on a bank that accepts all payments; the orders of others are arbitrary.",
  [V2+"execute.rs:execute_remove_bid", V2+"execute.rs:execute_remove_ask", V2+"helpers.rs:finalize_sale", RA+"execute.rs:execute_place_bid", RA+"execute.rs:execute_cancel_auction", V1+"execute.rs:execute_remove_bid", V1+"execute.rs:execute_remove_collection_bid"])
p("v2: a listing that cannot be paid for does not stand in the way of the others",
  "On a chain whose bank refuses payments to some addresses, a purchase of any token of a collection (BuyCollectionNft) that the contract accepts completes, if the buyer can be paid and there is a listing within its limit for which only accounts have to be paid that are not refused. (Violated: the cheapest listing is taken. If its recipient or its finder is refused, every BuyCollectionNft, SetCollectionBid and UpdateCollectionBid at or above its price fails, whoever makes it, until the listing is withdrawn or its token is bought otherwise.)",
  "every set of refused addresses, every run, every purchase",
  "Tests run on a bank that accepts all payments; the listing that does the damage may be anybody's.",
  [V2+"orders.rs:match_with_ask", V2+"helpers.rs:finalize_sale", V2+"execute.rs:execute_set_collection_bid"])
p("v2: a bid that cannot be paid out does not keep owners from listing",
  "On a chain whose bank refuses payments to some addresses, an owner that is not refused, and names no account that is, can list a token: the call completes if the contract accepts it. (Violated: a listing is matched with the best bid, and the finder of that bid gets a reward. If that finder is refused, nobody can list any token of the collection at or below the price of the bid, for as long as the bid is open. Above all bids listing works.)",
  "every set of refused addresses, every run, every listing",
  "Tests run on a bank that accepts all payments; the bid that does the damage may be anybody's.",
  [V2+"orders.rs:match_with_bid", V2+"helpers.rs:finalize_sale", V2+"helpers.rs:divide_protocol_fees", V2+"execute.rs:execute_set_ask"])
p("all: a token sent to the contract by mistake can be returned",
  "Every token of a conforming collection that one of the contracts owns between transactions can be got out of it again by some sequence of calls. (Violated: a token that was transferred to a contract without an order, or bought or withdrawn in favour of the contract's own address, stays there for ever, whoever calls whatever; it cannot be listed or auctioned either. Listed tokens and tokens under auction can be got out; v1 never holds tokens, and nothing gets out that was sent to it.)",
  "every run, every token of a conforming collection, every continuation",
  "The claim is about everything that can happen afterwards, in any number of calls by any accounts.",
  [V2+"execute.rs:execute", V2+"execute.rs:execute_remove_ask", V2+"helpers.rs:only_owner", RA+"execute.rs:execute_create_auction", RA+"execute.rs:execute_cancel_auction", V1+"execute.rs:execute_set_bid", V1+"execute.rs:only_owner"])
p("all: coins sent to the contract by mistake can be returned",
  "Coins in the account of one of the contracts that it does not owe to any bidder can be got out again by some sequence of calls. (Violated: what the account holds beyond the open bids and the payments still to be made never gets less, in any denom, through any run. That includes coins sent without a call, the coins of C05 and C42 and the dust of C46. What is owed can be got out.)",
  "every run, every denom, every continuation",
  "The claim is about everything that can happen afterwards, in any number of calls by any accounts.",
  [V2+"execute.rs:execute", RA+"execute.rs:execute", RA+"sudo.rs:sudo", V1+"execute.rs:execute", V1+"sudo.rs:sudo"])
p("v1, v2: a listing brings what the fees at the time of listing leave",
  "A listing that stays as it is and is bought later brings its seller at least what it would have brought under the settings in force when it was placed, up to the rounding (3 base units in v2, one in v1). (Violated: the fees at the time of the sale count. After the admin of v2 has raised the protocol fee, or governance the network fee of v1, an open listing can sell for its full price with nothing left for the seller, who cannot prevent it other than by withdrawing the listing. If the settings stay the same the claim holds.)",
  "every run or history, every listing, every later purchase",
  "Two points of a history with arbitrary calls between them, all settings and prices.",
  [V2+"helpers.rs:finalize_sale", V2+"execute.rs:execute_update_config", V2+"state.rs:Config", V1+"execute.rs:payout", V1+"sudo.rs:sudo_update_params"])
p("v2: trades are in the denom of the collection",
  "Whenever a token is traded, the price is in the denom that its collection has at that time. (Violated: after UpdateCollectionDenom the orders in the old denom stay, and AcceptAsk, AcceptBid and AcceptCollectionBid trade in the denom of the order. Trades that the contract makes by matching are in the current denom.)",
  "every reachable state, every call that trades",
  "All histories, orders and denoms.",
  [V2+"helpers.rs:only_valid_price", V2+"execute.rs:execute_update_collection_denom", V2+"execute.rs:execute_accept_ask", V2+"execute.rs:execute_accept_bid", V2+"execute.rs:execute_accept_collection_bid"])
p("all: a query with a malformed address is refused, every other query is answered",
  "A query is answered if and only if all addresses in it are valid. (Violated in v1 and in the reserve auction: some addresses in offsets are not looked at, so a listing is continued from a place that cannot exist. A query about a malformed address is refused, and a query with valid addresses is always answered; in v2 the claim holds.)",
  "every state, every query message",
  "All query messages with all combinations of optional arguments, in every state.",
  [V2+"query.rs:query", RA+"query.rs:query", V1+"query.rs:query", V1+"query.rs:query_bids", RA+"query.rs:query_auctions_by_end_time"])
p("all: a query shows only what is stored and asked for, each once, within the limit",
  "Whatever is asked, the orders and auctions in the answer are those stored, unchanged: looking one up by its key gives the same. Each is one that the query asks for (collection, token, denom, creator, seller, bidder, end time, inactive listings only on request), none is shown twice, and there are at most as many as asked for and never more than the cap.",
  "every reachable state, every query message with every offset, order and limit",
  "All query messages, offsets and limits in every reachable state.",
  [V2+"query.rs:query", V2+"query.rs:query_bids_by_token_price", RA+"query.rs:query", RA+"query.rs:query_auctions_by_end_time", V1+"query.rs:query", V1+"query.rs:query_asks", V1+"query.rs:query_bids"])
p("all: paging while orders come and go",
  "A client that pages through a listing, each page starting after the last item of the one before, while any transactions happen between the pages, sees the items in the order of the listing, none at the same place twice, each as it was stored at that moment; and once a page is not full, it has seen every item that kept its place in the listing all the time. (Violated in v1 for the listings of bids by expiry: if the last bid shown is withdrawn meanwhile, the listing starts over and shows bids again. The other listings of v1, except for the defects of C57, C58, C67 and C68, all of v2 and those of the auctions have the property.)",
  "every list of reachable states, one for each page, every start, direction and page size",
  "The states between the pages are arbitrary; tests page through a state at rest.",
  [V2+"query.rs:query_asks_by_collection_denom", V2+"query.rs:query_bids_by_token_price", RA+"query.rs:query_auctions_by_seller", RA+"query.rs:query_auctions_by_end_time", V1+"query.rs:query_bids_by_bidder_sorted_by_expiry", V1+"query.rs:query_asks_sorted_by_price"])
p("all: the work of a call does not grow with the number of orders",
  "However many orders and auctions there are: a call that succeeds sends at most eight messages in v2, at most six in v1 besides those to the registered hooks of one kind, and in the reserve auction at most two, or a token and the payments that the library makes for one sale. It writes or deletes at most one listing or auction, and at most one bid or else at most one collection bid. The end of a block sends at most the configured number of settlements times what one of them sends.",
  "every state, every call",
  "Tests run with a handful of orders; all states and calls, with any number of orders.",
  [V2+"execute.rs:execute", V2+"helpers.rs:finalize_sale", V1+"execute.rs:execute", V1+"execute.rs:finalize_sale", RA+"execute.rs:execute", RA+"sudo.rs:sudo_end_block"])
p("all: changing an order gives what withdrawing it and placing it anew gives",
  "If both succeed, UpdateAsk, UpdateBid and UpdateCollectionBid (v2), UpdateAskPrice by the lister and a new bid or collection bid over an old one (v1), and UpdateReservePrice (auction) leave the same state as withdrawing the order and placing it anew with the same terms, up to the id of a v2 bid. In v2 the same trade is made, with the same messages, and it costs the bidder as much in all; v1 sends the same messages after the return of the old bid. Placing a listing or an auction anew costs the fee again and moves the token.",
  "every reachable state, every order, every change for which both succeed",
  "Compares two executions from an arbitrary state; tests look at one at a time.",
  [V2+"execute.rs:execute_update_ask", V2+"execute.rs:execute_update_bid", V2+"execute.rs:execute_update_collection_bid", V1+"execute.rs:execute_update_ask_price", V1+"execute.rs:execute_set_bid", V1+"execute.rs:execute_set_collection_bid", RA+"execute.rs:execute_update_reserve_price"])
p("v1: what an account acquires is not for sale before it says so",
  "An account that does not own a token and later does, without having called the contract since, does not lose the token by a call of somebody else. (Violated: a listing stays when the token leaves its seller by a transfer; once the token is back, anyone can buy it at the old price, if the listing has not expired and was not removed meanwhile. It holds if no listing of the token by that account was left; while somebody else owns the token the old listing sells nothing, and the owner can remove it.)",
  "every run, every token of a conforming collection, every account, any number of transactions in between",
  "Histories of any length with transfers outside the contract; tests do not give tokens away and take them back.",
  [V1+"execute.rs:execute_set_bid", V1+"execute.rs:execute_set_ask", V1+"execute.rs:execute_remove_ask", V1+"execute.rs:finalize_sale"])
p("v1: an expired listing has no effect",
  "Once a listing has expired, every call that is not about the listing itself has the result, messages and changes that it would have had if the listing had been removed. (Violated: bids for the token are refused with an error as long as the expired listing is there, although bids for unlisted tokens are accepted. It holds for all other calls.)",
  "every reachable state, every listing, every later time, every call",
  "Compares two executions from an arbitrary state for every call.",
  [V1+"execute.rs:execute_set_bid", V1+"execute.rs:execute_accept_bid", V1+"execute.rs:execute_remove_stale_ask"])
p("auction: what the next bid must be does not change while nobody bids",
  "While an auction stands unchanged, a bid for its token with the same coins at the same time has the same result, accepted or not, new end and refund, at a later point of a history as at an earlier one. (Violated: the increment and the extension are read at the time of the bid and governance can change them while the auction runs. It holds for the first bid, and for later ones if these two settings are the same; twice the standing bid is always enough.)",
  "every history, every auction, every bid",
  "Two points of a history with arbitrary calls between them, all settings and bids.",
  [RA+"execute.rs:execute_place_bid", RA+"state.rs:min_bid_coin", RA+"sudo.rs:sudo_update_params"])
p("all: exactly which calls are accepted",
  "In every reachable state a call succeeds if and only if the specification lists it: the conditions on the caller, the attached coins, the arguments, the order or auction concerned, the best order it meets, the settings, what collection and registry report and the time are necessary and together sufficient. Nothing else, such as other users or the history, can make a call fail or let it through. Amounts have 128 bits and times 64.",
  "every reachable state, every caller, attached coins, message, time and answers of collections; v2: order ids without collisions, nonce not exhausted",
  "An equivalence over all states and calls; tests show single calls that pass or fail.",
  [V2+"execute.rs:execute", V2+"helpers.rs:finalize_sale", V2+"orders.rs:match_with_bid", V1+"execute.rs:execute", V1+"execute.rs:execute_set_bid", V1+"execute.rs:payout", RA+"execute.rs:execute", RA+"execute.rs:execute_place_bid", RA+"helpers.rs:settle_auction"])
p("all: exactly which governance calls, hooks and deployments are accepted",
  "A governance call, a block hook or a deployment succeeds if and only if the specification lists it. UpdateParams: sound new values and well-formed addresses. Lists of operators, hooks and minimum prices: what is added is not there, what is removed is. Begin-block hook: the clock has not gone back and the end of a detected halt has 64 bits. End-block hook of the auction: each of the tokens whose turn it is, the earliest of those that are over up to the configured number, can be settled by a call. Deployment: sound settings and well-formed addresses. It is determined by end times and tokens whose turn it is.",
  "every state (auction: every reachable state), message, time before 2^64 ns, collection addresses of less than 65536 bytes",
  "An equivalence over all states and calls; for the end-block hook over all sets of auctions and end times.",
  [RA+"sudo.rs:sudo", RA+"sudo.rs:sudo_begin_block", RA+"sudo.rs:sudo_end_block", RA+"sudo.rs:sudo_update_params", RA+"instantiate.rs:instantiate", V1+"sudo.rs:sudo", V1+"execute.rs:instantiate", V2+"instantiate.rs:instantiate"])
p("v2, auction: what the queries show first is what trades next",
  "v2: a call for any token of a collection buys the listing that AsksByCollectionDenom shows first, if that is within the limit, and otherwise buys nothing. A call that offers a token sells to the first bid of BidsByTokenPrice or of CollectionBidsByPrice (both in descending order), whichever is higher, the bid on the token if they are equal, if it is within the limit; otherwise the token is not sold. Auction: the end-block hook takes up the auctions that AuctionsByEndTime shows first: those among the first as many as it may take up that are over are settled or postponed, the others that are shown stay as they are.",
  "every state (auction: every reachable state), every call that succeeds, every query from the start of the listing with room for an entry",
  "Relates two entry points over all states; tests look at queries and trades apart.",
  [V2+"query.rs:query_asks_by_collection_denom", V2+"query.rs:query_bids_by_token_price", V2+"query.rs:query_collection_bids_by_price", V2+"orders.rs:match_with_bid", V2+"orders.rs:match_with_ask", RA+"query.rs:query_auctions_by_end_time", RA+"sudo.rs:sudo_end_block"])
p("v2: a trade uses the recipient and the finder that the call names",
  "When a call trades at once, the seller's part of the price goes to the recipient that the seller's call names, the token goes to the recipient that the buyer's call names (to the caller if none is named), and the finder of the caller's side is the one that the call names. (Violated: AcceptBid and AcceptCollectionBid of a token that the caller has listed use recipient and finder of the listing and ignore those in the call. It holds for all other calls.)",
  "every reachable state, every call that trades",
  "All orders, recipients, finders and states in which the call may meet them.",
  [V2+"execute.rs:execute_accept_bid", V2+"execute.rs:execute_accept_collection_bid", V2+"helpers.rs:finalize_sale"])
p("v2, auction: what has been done to a bid cannot be done again",
  "v2: once a bid or collection bid has been filled, withdrawn or otherwise closed, no call that names it (accept, update, remove) succeeds ever after, whoever makes it: ids are not given out twice, so a call that was delayed or sent twice cannot hit another order. Auction: while an auction runs, an amount that has been bid is not accepted again, nor a smaller one, from the same or another account.",
  "every history (v2: of less than 2^64 - 1 calls, ids without collisions), every bid, every later call",
  "Concerns all later calls in histories of any length.",
  [V2+"execute.rs:execute_accept_bid", V2+"execute.rs:execute_remove_bid", V2+"orders.rs:Bid::new", V2+"helpers.rs:generate_id", RA+"execute.rs:execute_place_bid"])
p("v1, v2: a purchase that is sent twice",
  "A call that is about one token and has bought it fails if the same account sends it again, whenever and with whatever coins: nobody pays twice for one token. (Violated: SetBid, in v1 and v2, that has bought the listed token leaves, when sent again, an open bid on the token that the caller now owns and ties up the coins until it is removed. Holds for AcceptAsk and BuySpecificNft of v2 and BuyNow and BuyFor of v1.)",
  "every reachable state, every call that has bought a token, every later time, coins and answers of collections for the second call",
  "All states, times and coins of both calls.",
  [V2+"execute.rs:execute_accept_ask", V2+"execute.rs:execute_set_bid", V2+"orders.rs:match_with_ask", V1+"execute.rs:execute_set_bid", V1+"execute.rs:execute"])
p("auction: what settling pays does not depend on who settles and when",
  "An auction that has ended pays the same amounts to the same accounts whoever settles it, by a call or through the end-block hook, early or late. (Violated: the trading fee is read at settlement, so a change after the last bid, even after the end of the auction, alters what the seller gets. Holds while trading fee and fair-burn address stay the same; the winner and the total paid out never change.)",
  "every reachable state, every later state in which the auction still stands, every settler, time and answers of collections with the same royalty",
  "All pairs of states of a history and both ways of settling, among any other auctions that the hook settles.",
  [RA+"helpers.rs:settle_auction", RA+"execute.rs:execute_settle_auction", RA+"sudo.rs:sudo_end_block", RA+"sudo.rs:sudo_update_params"])
p("v1: an expired bid has no effect",
  "Once a bid or collection bid has expired, every call but those that replace, withdraw, reject or clean up that very bid succeeds or fails, pays and changes the rest exactly as if the bid were not there; so it cannot be accepted. A new bid of the same account (also by BuyNow or BuyFor) does what it would do without the old one and gives the old one back in full on top.",
  "every state, every expired bid, every caller, coins, call and later time",
  "Compares two executions for all states and calls.",
  [V1+"execute.rs:execute_accept_bid", V1+"execute.rs:execute_accept_collection_bid", V1+"execute.rs:execute_set_bid", V1+"execute.rs:execute_set_collection_bid", V1+"state.rs:is_expired"])
p("v2: coins attached beyond what is needed come back",
  "A call that pays for an order or a token (AcceptAsk, SetBid, UpdateBid, SetCollectionBid, UpdateCollectionBid, BuySpecificNft, BuyCollectionNft) and succeeds also succeeds if more coins are attached, in whatever denoms: the orders afterwards are the same, all payments and transfers are the same, and exactly what has been added goes back to the caller at the end of the same call. So neither what is bought nor the price depends on the coins attached.",
  "every reachable state, every such call, every two lists of attached coins of which one has at least as much in each denom; amounts of 128 bits",
  "Compares two executions for all states and all pairs of coin lists.",
  [V2+"execute.rs:execute_accept_ask", V2+"execute.rs:execute_set_bid", V2+"execute.rs:execute_update_bid", V2+"execute.rs:execute_set_collection_bid", V2+"execute.rs:execute_update_collection_bid"])
p("v2: the limit of a trade only decides whether there is one",
  "If SellNft, BuySpecificNft, BuyCollectionNft, AcceptAsk, AcceptBid or AcceptCollectionBid succeeds with some limit price, then it also succeeds with every limit in the same denom that asks for less (a higher one of a buyer, a lower one of a seller; positive for SellNft), and does exactly the same: same counterparty, same price, same payments, same orders afterwards. The same holds of SetAsk, UpdateAsk, SetBid, UpdateBid, SetCollectionBid and UpdateCollectionBid when they trade instead of leaving an order. Nobody who states a generous limit pays more or gets less for it.",
  "every state (for orders: every reachable one), every such call, every limit that asks for less (below 2^128 - 1 for collection bids)",
  "Compares two executions for all states, order books and pairs of limits.",
  [V2+"execute.rs:execute_set_ask", V2+"execute.rs:execute_set_bid", V2+"execute.rs:execute_set_collection_bid", V2+"execute.rs:execute_accept_ask", V2+"execute.rs:execute_accept_bid", V2+"execute.rs:execute_accept_collection_bid", V2+"execute.rs:execute_update_ask", V2+"execute.rs:execute_update_bid", V2+"execute.rs:execute_update_collection_bid", V2+"orders.rs:match_with_bid", V2+"orders.rs:match_with_ask", V2+"helpers.rs:finalize_sale"])
if __name__=="__main__":
    with open("/verif/properties.jsonl","w") as f:
        for x in P: f.write(json.dumps(x, ensure_ascii=True)+"\n")
    print(len(P))

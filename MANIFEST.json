{
 "claims": [
  {
   "property": "C01",
   "status": "proved",
   "theorems": [
    "Verif.V2.C01_feeDue_is_ceiling",
    "Verif.V2.C01_split_total",
    "Verif.V2.C01_processor",
    "Verif.V2.C01_processor_rejects",
    "Verif.V2.C01_sale"
   ],
   "note": ""
  },
  {
   "property": "C02",
   "status": "proved",
   "theorems": [
    "Verif.V2.C02_shares_total",
    "Verif.V2.C02_sale",
    "Verif.V2.C02_never_aborts"
   ],
   "note": ""
  },
  {
   "property": "C03",
   "status": "proved",
   "theorems": [
    "Verif.V2.C03_backed"
   ],
   "note": ""
  },
  {
   "property": "C04",
   "status": "proved",
   "theorems": [
    "Verif.V2.C04_account",
    "Verif.V2.C04_refund"
   ],
   "note": ""
  },
  {
   "property": "C05",
   "status": "partial",
   "theorems": [
    "Verif.V2.C05_violated",
    "Verif.V2.C05_partial"
   ],
   "note": "VIOLATED by the code: negation proved (_violated), the part that holds is in the _partial theorem. AcceptBid and AcceptCollectionBid keep coins attached to the call."
  },
  {
   "property": "C06",
   "status": "proved",
   "theorems": [
    "Verif.V2.C06_withdraw_bid",
    "Verif.V2.C06_withdraw_cbid"
   ],
   "note": ""
  },
  {
   "property": "C07",
   "status": "proved",
   "theorems": [
    "Verif.V2.C07_custody_nested",
    "Verif.V2.C07_custody"
   ],
   "note": ""
  },
  {
   "property": "C08",
   "status": "proved",
   "theorems": [
    "Verif.V2.C08_withdraw_ask"
   ],
   "note": ""
  },
  {
   "property": "C09",
   "status": "proved",
   "theorems": [
    "Verif.V2.C09_bids",
    "Verif.V2.C09_cbids",
    "Verif.V2.C09_asks",
    "Verif.V2.C09_asks_run"
   ],
   "note": ""
  },
  {
   "property": "C10",
   "status": "proved",
   "theorems": [
    "Verif.V2.C10_admin"
   ],
   "note": ""
  },
  {
   "property": "C11",
   "status": "proved",
   "theorems": [
    "Verif.V2.C11_not_crossed"
   ],
   "note": ""
  },
  {
   "property": "C12",
   "status": "proved",
   "theorems": [
    "Verif.V2.C12_best_bid",
    "Verif.V2.C12_must_trade"
   ],
   "note": ""
  },
  {
   "property": "C13",
   "status": "proved",
   "theorems": [
    "Verif.V2.C13_cheapest"
   ],
   "note": ""
  },
  {
   "property": "C14",
   "status": "proved",
   "theorems": [
    "Verif.V2.C14_limits"
   ],
   "note": ""
  },
  {
   "property": "C15",
   "status": "proved",
   "theorems": [
    "Verif.V2.C15_immediate"
   ],
   "note": ""
  },
  {
   "property": "C16",
   "status": "proved",
   "theorems": [
    "Verif.V2.C16_ask_ids",
    "Verif.V2.C16_one_ask",
    "Verif.V2.C16_fresh",
    "Verif.V2.C16_stable"
   ],
   "note": ""
  },
  {
   "property": "C17",
   "status": "proved",
   "theorems": [
    "Verif.V2.C17_config"
   ],
   "note": ""
  },
  {
   "property": "C18",
   "status": "proved",
   "theorems": [
    "Verif.V2.C18_prices",
    "Verif.V2.C18_sends"
   ],
   "note": ""
  },
  {
   "property": "C19",
   "status": "proved",
   "theorems": [
    "Verif.V2.C19_listing_fee"
   ],
   "note": ""
  },
  {
   "property": "C20",
   "status": "proved",
   "theorems": [
    "Verif.V2.C20_not_before_start"
   ],
   "note": ""
  },
  {
   "property": "C21",
   "status": "partial",
   "theorems": [
    "Verif.V2.C21_violated",
    "Verif.V2.C21_partial"
   ],
   "note": "VIOLATED by the code: negation proved (_violated), the part that holds is in the _partial theorem. AcceptAsk, AcceptBid, AcceptCollectionBid and the Update calls do not check the trading time."
  },
  {
   "property": "C22",
   "status": "proved",
   "theorems": [
    "Verif.V2.C22_royalty"
   ],
   "note": ""
  },
  {
   "property": "C23",
   "status": "proved",
   "theorems": [
    "Verif.V2.C23_at_most_one",
    "Verif.V2.C23_sale_moves"
   ],
   "note": ""
  },
  {
   "property": "C24",
   "status": "proved",
   "theorems": [
    "Verif.V2.C24_asks",
    "Verif.V2.C24_bids",
    "Verif.V2.C24_cbids",
    "Verif.V2.C24_own_asks",
    "Verif.V2.C24_own_bids",
    "Verif.V2.C24_own_cbids",
    "Verif.V2.C24_by_id"
   ],
   "note": ""
  },
  {
   "property": "C25",
   "status": "proved",
   "theorems": [
    "Verif.V2.C25_index_key",
    "Verif.V2.C25_bid_matches_token"
   ],
   "note": ""
  },
  {
   "property": "C26",
   "status": "partial",
   "theorems": [
    "Verif.V2.C26_violated",
    "Verif.V2.C26_partial",
    "Verif.V2.C26_conforming"
   ],
   "note": "VIOLATED by the code: negation proved (_violated), the part that holds is in the _partial theorem. An OwnerOf query error passes the check. For conforming collections such a transaction cannot complete."
  },
  {
   "property": "C27",
   "status": "proved",
   "theorems": [
    "Verif.Auction.C27_backed"
   ],
   "note": ""
  },
  {
   "property": "C28",
   "status": "proved",
   "theorems": [
    "Verif.Auction.C28_min",
    "Verif.Auction.C28_history"
   ],
   "note": ""
  },
  {
   "property": "C29",
   "status": "proved",
   "theorems": [
    "Verif.Auction.C29_refund",
    "Verif.Auction.C29_live"
   ],
   "note": ""
  },
  {
   "property": "C30",
   "status": "proved",
   "theorems": [
    "Verif.Auction.C30_fields",
    "Verif.Auction.C30_no_panic"
   ],
   "note": ""
  },
  {
   "property": "C31",
   "status": "proved",
   "theorems": [
    "Verif.Auction.C31_custody"
   ],
   "note": ""
  },
  {
   "property": "C32",
   "status": "proved",
   "theorems": [
    "Verif.Auction.C32_cancel",
    "Verif.Auction.C32_reserve",
    "Verif.Auction.C32_frozen"
   ],
   "note": ""
  },
  {
   "property": "C33",
   "status": "proved",
   "theorems": [
    "Verif.Auction.C33_exclusive",
    "Verif.Auction.C33_settle",
    "Verif.Auction.C33_end_block",
    "Verif.Auction.C33_bid"
   ],
   "note": ""
  },
  {
   "property": "C34",
   "status": "proved",
   "theorems": [
    "Verif.Auction.C34_bid",
    "Verif.Auction.C34_never_earlier",
    "Verif.Auction.C34_postpone"
   ],
   "note": ""
  },
  {
   "property": "C35",
   "status": "proved",
   "theorems": [
    "Verif.Auction.C35_settle",
    "Verif.Auction.C35_batch",
    "Verif.Auction.C35_once"
   ],
   "note": ""
  },
  {
   "property": "C36",
   "status": "proved",
   "theorems": [
    "Verif.Auction.C36_settle",
    "Verif.Auction.C36_postpone"
   ],
   "note": ""
  },
  {
   "property": "C37",
   "status": "proved",
   "theorems": [
    "Verif.Auction.C37_batch"
   ],
   "note": ""
  },
  {
   "property": "C38",
   "status": "partial",
   "theorems": [
    "Verif.Auction.C38_violated",
    "Verif.Auction.C38_partial"
   ],
   "note": "VIOLATED by the code: negation proved (_violated), the part that holds is in the _partial theorem. Auctions are selected by whole seconds but settled by nanoseconds."
  },
  {
   "property": "C39",
   "status": "partial",
   "theorems": [
    "Verif.Auction.C39_violated",
    "Verif.Auction.C39_partial",
    "Verif.Auction.C39_partial_detect",
    "Verif.Auction.C39_partial_keep",
    "Verif.Auction.C39_partial_forget"
   ],
   "note": "VIOLATED by the code: negation proved (_violated), the part that holds is in the _partial theorem. The window is dropped by the first end-block call that finds no due auction."
  },
  {
   "property": "C40",
   "status": "partial",
   "theorems": [
    "Verif.Auction.C40_violated",
    "Verif.Auction.C40_blocked",
    "Verif.Auction.C40_partial"
   ],
   "note": "VIOLATED by the code: negation proved (_violated), the part that holds is in the _partial theorem. The first failing settlement aborts the batch (C40_blocked states this in general)."
  },
  {
   "property": "C41",
   "status": "proved",
   "theorems": [
    "Verif.Auction.C41_config",
    "Verif.Auction.C41_auctions"
   ],
   "note": ""
  },
  {
   "property": "C42",
   "status": "partial",
   "theorems": [
    "Verif.Auction.C42_violated",
    "Verif.Auction.C42_partial"
   ],
   "note": "VIOLATED by the code: negation proved (_violated), the part that holds is in the _partial theorem. Funds above the creation fee are kept."
  },
  {
   "property": "C43",
   "status": "proved",
   "theorems": [
    "Verif.Auction.C43_frame",
    "Verif.Auction.C43_unique"
   ],
   "note": ""
  },
  {
   "property": "C44",
   "status": "proved",
   "theorems": [
    "Verif.V1.C44_backed"
   ],
   "note": ""
  },
  {
   "property": "C45",
   "status": "proved",
   "theorems": [
    "Verif.V1.C45_parts",
    "Verif.V1.C45_total"
   ],
   "note": ""
  },
  {
   "property": "C46",
   "status": "partial",
   "theorems": [
    "Verif.V1.C46_violated",
    "Verif.V1.C46_partial"
   ],
   "note": "VIOLATED by the code: negation proved (_violated), the part that holds is in the _partial theorem. Royalty and remainder are rounded down separately; one unit can stay in the contract."
  },
  {
   "property": "C47",
   "status": "proved",
   "theorems": [
    "Verif.V1.C47_bid",
    "Verif.V1.C47_cbid"
   ],
   "note": ""
  },
  {
   "property": "C48",
   "status": "proved",
   "theorems": [
    "Verif.V1.C48_unique",
    "Verif.V1.C48_unique_cbid",
    "Verif.V1.C48_replace",
    "Verif.V1.C48_replace_cbid"
   ],
   "note": ""
  },
  {
   "property": "C49",
   "status": "proved",
   "theorems": [
    "Verif.V1.C49_consent",
    "Verif.V1.C49_token",
    "Verif.V1.C49_decimal",
    "Verif.V1.C49_started"
   ],
   "note": ""
  },
  {
   "property": "C50",
   "status": "proved",
   "theorems": [
    "Verif.V1.C50_refused",
    "Verif.V1.C50_effect"
   ],
   "note": ""
  },
  {
   "property": "C51",
   "status": "proved",
   "theorems": [
    "Verif.V1.C51_owner",
    "Verif.V1.C51_frame",
    "Verif.V1.C51_sudo"
   ],
   "note": ""
  },
  {
   "property": "C52",
   "status": "partial",
   "theorems": [
    "Verif.V1.C52_violated",
    "Verif.V1.C52_partial",
    "Verif.V1.C52_partial_max"
   ],
   "note": "VIOLATED by the code: negation proved (_violated), the part that holds is in the _partial theorem. UpdateAskPrice does not check the maximum."
  },
  {
   "property": "C53",
   "status": "proved",
   "theorems": [
    "Verif.V1.C53_bid",
    "Verif.V1.C53_cbid",
    "Verif.V1.C53_frame"
   ],
   "note": ""
  },
  {
   "property": "C54",
   "status": "proved",
   "theorems": [
    "Verif.V1.C54_same",
    "Verif.V1.C54_last",
    "Verif.V1.C54_registered"
   ],
   "note": ""
  },
  {
   "property": "C55",
   "status": "proved",
   "theorems": [
    "Verif.V1.C55_bounds",
    "Verif.V1.C55_frame",
    "Verif.V1.C55_update",
    "Verif.V1.C55_operators"
   ],
   "note": ""
  },
  {
   "property": "C56",
   "status": "proved",
   "theorems": [
    "Verif.V1.C56_stored",
    "Verif.V1.C56_bounded",
    "Verif.V1.C56_paid"
   ],
   "note": ""
  },
  {
   "property": "C57",
   "status": "partial",
   "theorems": [
    "Verif.V1.C57_partial",
    "Verif.V1.C57_violated"
   ],
   "note": "VIOLATED by the code: negation proved (_violated), the part that holds is in the _partial theorem. An ask on token 0 is never listed."
  },
  {
   "property": "C58",
   "status": "partial",
   "theorems": [
    "Verif.V1.C58_partial",
    "Verif.V1.C58_violated"
   ],
   "note": "VIOLATED by the code: negation proved (_violated), the part that holds is in the _partial theorem. Without start_before nothing is returned."
  },
  {
   "property": "C59",
   "status": "proved",
   "theorems": [
    "Verif.V1.C59_price_sorted"
   ],
   "note": ""
  },
  {
   "property": "C60",
   "status": "proved",
   "theorems": [
    "Verif.V2.C60_map_validate"
   ],
   "note": ""
  },
  {
   "property": "C61",
   "status": "proved",
   "theorems": [
    "Verif.V2.C61_checked"
   ],
   "note": ""
  },
  {
   "property": "C62",
   "status": "partial",
   "theorems": [
    "Verif.V2.C62_violated",
    "Verif.V2.C62_partial"
   ],
   "note": "VIOLATED by the code: negation proved (_violated), the part that holds is in the _partial theorem. If OwnerOf fails for a listed token, a third party's SellNft deletes the listing."
  },
  {
   "property": "C63",
   "status": "proved",
   "theorems": [
    "Verif.Auction.C63_cancel"
   ],
   "note": ""
  },
  {
   "property": "C64",
   "status": "proved",
   "theorems": [
    "Verif.Auction.C64_call",
    "Verif.Auction.C64_hook"
   ],
   "note": ""
  },
  {
   "property": "C65",
   "status": "proved",
   "theorems": [
    "Verif.Auction.C65_bidder"
   ],
   "note": ""
  },
  {
   "property": "C66",
   "status": "partial",
   "theorems": [
    "Verif.Auction.C66_violated",
    "Verif.Auction.C66_partial"
   ],
   "note": "VIOLATED by the code: negation proved (_violated), the part that holds is in the _partial theorem. The limit is truncated to 32 bits."
  },
  {
   "property": "C67",
   "status": "partial",
   "theorems": [
    "Verif.V1.C67_partial",
    "Verif.V1.C67_violated"
   ],
   "note": "VIOLATED by the code: negation proved (_violated), the part that holds is in the _partial theorem. Every page after the first is empty."
  },
  {
   "property": "C68",
   "status": "partial",
   "theorems": [
    "Verif.V1.C68_violated",
    "Verif.V1.C68_partial"
   ],
   "note": "VIOLATED by the code: negation proved (_violated), the part that holds is in the _partial theorem. A collection is listed once per ask."
  },
  {
   "property": "C69",
   "status": "proved",
   "theorems": [
    "Verif.V1.C69_by_account",
    "Verif.V1.C69_by_expiry"
   ],
   "note": ""
  },
  {
   "property": "C70",
   "status": "partial",
   "theorems": [
    "Verif.V1.C70_violated",
    "Verif.V1.C70_partial"
   ],
   "note": "VIOLATED by the code: negation proved (_violated), the part that holds is in the _partial theorem. A missing offset bid restarts the listing."
  },
  {
   "property": "C71",
   "status": "proved",
   "theorems": [
    "Verif.V1.C71_ask_count"
   ],
   "note": ""
  },
  {
   "property": "C72",
   "status": "proved",
   "theorems": [
    "Verif.V1.C72_lookup"
   ],
   "note": ""
  },
  {
   "property": "C73",
   "status": "proved",
   "theorems": [
    "Verif.V1.C73_key_order"
   ],
   "note": ""
  },
  {
   "property": "C74",
   "status": "proved",
   "theorems": [
    "Verif.V2.C74_denom"
   ],
   "note": ""
  },
  {
   "property": "C75",
   "status": "proved",
   "theorems": [
    "Verif.V2.C75_recorded"
   ],
   "note": ""
  },
  {
   "property": "C76",
   "status": "proved",
   "theorems": [
    "Verif.V2.C76_update_config",
    "Verif.V2.C76_update_denom",
    "Verif.V2.C76_listing_fee",
    "Verif.V2.C76_instantiate"
   ],
   "note": ""
  },
  {
   "property": "C77",
   "status": "proved",
   "theorems": [
    "Verif.V2.C77_completes"
   ],
   "note": ""
  },
  {
   "property": "C78",
   "status": "proved",
   "theorems": [
    "Verif.V2.C78_buy"
   ],
   "note": ""
  },
  {
   "property": "C79",
   "status": "proved",
   "theorems": [
    "Verif.V2.C79_accept_bid",
    "Verif.V2.C79_accept_cbid"
   ],
   "note": ""
  },
  {
   "property": "C80",
   "status": "proved",
   "theorems": [
    "Verif.V2.C80_set_bid",
    "Verif.V2.C80_set_collection_bid",
    "Verif.V2.C80_set_ask"
   ],
   "note": ""
  },
  {
   "property": "C81",
   "status": "proved",
   "theorems": [
    "Verif.Auction.C81_create"
   ],
   "note": ""
  },
  {
   "property": "C82",
   "status": "proved",
   "theorems": [
    "Verif.Auction.C82_params",
    "Verif.Auction.C82_set_min",
    "Verif.Auction.C82_unset_min",
    "Verif.Auction.C82_init",
    "Verif.Auction.C82_only"
   ],
   "note": ""
  },
  {
   "property": "C83",
   "status": "proved",
   "theorems": [
    "Verif.Auction.C83_by_seller",
    "Verif.Auction.C83_min_prices",
    "Verif.Auction.C83_single"
   ],
   "note": ""
  },
  {
   "property": "C84",
   "status": "partial",
   "theorems": [
    "Verif.Auction.C84_partial",
    "Verif.Auction.C84_violated"
   ],
   "note": "VIOLATED by the code: negation proved (_violated), the part that holds is in the _partial theorem. With a fixed end_time the second page repeats the first; advancing end_time to that of the last auction pages correctly."
  },
  {
   "property": "C85",
   "status": "proved",
   "theorems": [
    "Verif.Auction.C85_key_order"
   ],
   "note": ""
  },
  {
   "property": "C86",
   "status": "proved",
   "theorems": [
    "Verif.Auction.C86_call",
    "Verif.Auction.C86_hook"
   ],
   "note": ""
  },
  {
   "property": "C87",
   "status": "proved",
   "theorems": [
    "Verif.Auction.C87_bid"
   ],
   "note": ""
  },
  {
   "property": "C88",
   "status": "proved",
   "theorems": [
    "Verif.Auction.C88_create"
   ],
   "note": ""
  },
  {
   "property": "C89",
   "status": "proved",
   "theorems": [
    "Verif.V1.C89_set_ask"
   ],
   "note": ""
  },
  {
   "property": "C90",
   "status": "proved",
   "theorems": [
    "Verif.V1.C90_price",
    "Verif.V1.C90_remove",
    "Verif.V1.C90_sync",
    "Verif.V1.C90_stale",
    "Verif.V1.C90_frame"
   ],
   "note": ""
  },
  {
   "property": "C91",
   "status": "proved",
   "theorems": [
    "Verif.V1.C91_bid",
    "Verif.V1.C91_cbid"
   ],
   "note": ""
  },
  {
   "property": "C92",
   "status": "proved",
   "theorems": [
    "Verif.V1.C92_bid",
    "Verif.V1.C92_cbid"
   ],
   "note": ""
  },
  {
   "property": "C93",
   "status": "proved",
   "theorems": [
    "Verif.V1.C93_accounting"
   ],
   "note": ""
  },
  {
   "property": "C94",
   "status": "proved",
   "theorems": [
    "Verif.V1.C94_news"
   ],
   "note": ""
  },
  {
   "property": "C95",
   "status": "partial",
   "theorems": [
    "Verif.V1.C95_violated",
    "Verif.V1.C95_partial"
   ],
   "note": "VIOLATED by the code: negation proved (_violated), the part that holds is in the _partial theorem. With less than the price, or on an auction listing, a bid is stored instead."
  },
  {
   "property": "C96",
   "status": "proved",
   "theorems": [
    "Verif.V1.C96_init",
    "Verif.V1.C96_once",
    "Verif.V1.C96_lists",
    "Verif.V1.C96_accepted",
    "Verif.V1.C96_update"
   ],
   "note": ""
  },
  {
   "property": "C97",
   "status": "partial",
   "theorems": [
    "Verif.V1.C97_violated",
    "Verif.V1.C97_partial"
   ],
   "note": "VIOLATED by the code: negation proved (_violated), the part that holds is in the _partial theorem. The operators field of UpdateParams is ignored."
  },
  {
   "property": "C98",
   "status": "partial",
   "theorems": [
    "Verif.V1.C98_violated",
    "Verif.V1.C98_partial",
    "Verif.V1.C98_partial_plain",
    "Verif.V1.C98_partial_sale",
    "Verif.V1.C98_partial_stale"
   ],
   "note": "VIOLATED by the code: negation proved (_violated), the part that holds is in the _partial theorem. Amounts that round to zero are sent and refused by the bank; C98_partial* say when calls complete."
  },
  {
   "property": "C99",
   "status": "proved",
   "theorems": [
    "Verif.V1.C99_buy"
   ],
   "note": ""
  },
  {
   "property": "C100",
   "status": "proved",
   "theorems": [
    "Verif.V1.C100_accept"
   ],
   "note": ""
  },
  {
   "property": "C101",
   "status": "proved",
   "theorems": [
    "Verif.V1.C101_ask",
    "Verif.V1.C101_bid",
    "Verif.V1.C101_cbid"
   ],
   "note": ""
  },
  {
   "property": "C102",
   "status": "proved",
   "theorems": [
    "Verif.V1.C102_remove",
    "Verif.V1.C102_price",
    "Verif.V1.C102_reject"
   ],
   "note": ""
  },
  {
   "property": "C103",
   "status": "proved",
   "theorems": [
    "Verif.V1.C103_sync",
    "Verif.V1.C103_ask",
    "Verif.V1.C103_bid",
    "Verif.V1.C103_cbid"
   ],
   "note": ""
  },
  {
   "property": "C104",
   "status": "proved",
   "theorems": [
    "Verif.V2.C104_cells",
    "Verif.V2.C104_reads",
    "Verif.V2.C104_listings",
    "Verif.V2.C104_calls",
    "Verif.V2.C104_namespaces"
   ],
   "note": ""
  },
  {
   "property": "C105",
   "status": "proved",
   "theorems": [
    "Verif.Auction.C105_cells",
    "Verif.Auction.C105_reads",
    "Verif.Auction.C105_listings",
    "Verif.Auction.C105_calls",
    "Verif.Auction.C105_namespaces"
   ],
   "note": ""
  },
  {
   "property": "C106",
   "status": "proved",
   "theorems": [
    "Verif.V1.C106_cells",
    "Verif.V1.C106_reads",
    "Verif.V1.C106_listings",
    "Verif.V1.C106_calls",
    "Verif.V1.C106_namespaces"
   ],
   "note": ""
  },
  {
   "property": "C107",
   "status": "proved",
   "theorems": [
    "Verif.V2.C107_log",
    "Verif.V2.C107_replay"
   ],
   "note": ""
  },
  {
   "property": "C108",
   "status": "proved",
   "theorems": [
    "Verif.V2.C108_once",
    "Verif.V2.C108_report"
   ],
   "note": ""
  },
  {
   "property": "C109",
   "status": "proved",
   "theorems": [
    "Verif.Auction.C109_log",
    "Verif.Auction.C109_replay",
    "Verif.Auction.Sample.C109_duration_hidden"
   ],
   "note": ""
  },
  {
   "property": "C110",
   "status": "proved",
   "theorems": [
    "Verif.Auction.C110_once",
    "Verif.Auction.C110_bid",
    "Verif.Auction.C110_settle"
   ],
   "note": ""
  },
  {
   "property": "C111",
   "status": "partial",
   "theorems": [
    "Verif.V1.C111_partial_step",
    "Verif.V1.C111_partial",
    "Verif.V1.C111_partial_log",
    "Verif.V1.C111_violated"
   ],
   "note": "VIOLATED by the code: negation proved (_violated), the part that holds is in the _partial theorem. A purchase emits set-bid although no bid is stored; an observer that reads response by response stays right."
  },
  {
   "property": "C112",
   "status": "proved",
   "theorems": [
    "Verif.V1.C112_shape",
    "Verif.V1.C112_handed",
    "Verif.V1.C112_terms"
   ],
   "note": ""
  },
  {
   "property": "C113",
   "status": "proved",
   "theorems": [
    "Verif.V1.C113_refunds"
   ],
   "note": ""
  },
  {
   "property": "C114",
   "status": "proved",
   "theorems": [
    "Verif.V1.C114_told",
    "Verif.V1.C114_hooks"
   ],
   "note": ""
  },
  {
   "property": "C115",
   "status": "proved",
   "theorems": [
    "Verif.Auction.C115_watch",
    "Verif.Auction.C115_fate",
    "Verif.Auction.C115_halt"
   ],
   "note": ""
  },
  {
   "property": "C116",
   "status": "proved",
   "theorems": [
    "Verif.V1.C116_accepts",
    "Verif.V1.C116_life",
    "Verif.V1.C116_forward"
   ],
   "note": ""
  },
  {
   "property": "C117",
   "status": "partial",
   "theorems": [
    "Verif.V2.C117_violated",
    "Verif.V2.C117_foreign",
    "Verif.V2.C117_partial",
    "Verif.V2.C117_announced",
    "Verif.Auction.C117_violated",
    "Verif.Auction.C117_foreign",
    "Verif.Auction.C117_partial",
    "Verif.Auction.C117_announced"
   ],
   "note": "VIOLATED by the code: negation proved (_violated), the part that holds is in the _partial theorem. migrate of v2 and of the auction check neither the contract name nor the version."
  },
  {
   "property": "C118",
   "status": "proved",
   "theorems": [
    "Verif.V2.C118_reserves",
    "Verif.V2.C118_clean"
   ],
   "note": ""
  },
  {
   "property": "C119",
   "status": "proved",
   "theorems": [
    "Verif.Auction.C119_reserves"
   ],
   "note": ""
  },
  {
   "property": "C120",
   "status": "proved",
   "theorems": [
    "Verif.V1.C120_reserves",
    "Verif.V1.C120_other"
   ],
   "note": ""
  },
  {
   "property": "C121",
   "status": "proved",
   "theorems": [
    "Verif.Auction.C121_backlog",
    "Verif.Auction.C121_turn"
   ],
   "note": ""
  },
  {
   "property": "C122",
   "status": "proved",
   "theorems": [
    "Verif.V2.C122_alone",
    "Verif.V2.C122_global",
    "Verif.V2.C122_others",
    "Verif.V2.C122_history"
   ],
   "note": ""
  },
  {
   "property": "C123",
   "status": "proved",
   "theorems": [
    "Verif.Auction.C123_alone",
    "Verif.Auction.C123_sudo",
    "Verif.Auction.C123_others",
    "Verif.Auction.C123_hook",
    "Verif.Auction.C123_history"
   ],
   "note": ""
  },
  {
   "property": "C124",
   "status": "proved",
   "theorems": [
    "Verif.V1.C124_local",
    "Verif.V1.C124_sudo",
    "Verif.V1.C124_others",
    "Verif.V1.C124_history",
    "Verif.V1.C124_collection",
    "Verif.V1.C124_collections"
   ],
   "note": ""
  },
  {
   "property": "C125",
   "status": "proved",
   "theorems": [
    "Verif.V2.C125_call",
    "Verif.V2.C125_history",
    "Verif.V2.C125_free"
   ],
   "note": ""
  },
  {
   "property": "C126",
   "status": "proved",
   "theorems": [
    "Verif.Auction.C126_call",
    "Verif.Auction.C126_hook",
    "Verif.Auction.C126_charge",
    "Verif.Auction.C126_won",
    "Verif.Auction.C126_history",
    "Verif.Auction.C126_free"
   ],
   "note": ""
  },
  {
   "property": "C127",
   "status": "proved",
   "theorems": [
    "Verif.V1.C127_call",
    "Verif.V1.C127_history",
    "Verif.V1.C127_free",
    "Verif.V1.C127_other"
   ],
   "note": ""
  },
  {
   "property": "C128",
   "status": "proved",
   "theorems": [
    "Verif.V2.C128_ask",
    "Verif.V2.C128_bid",
    "Verif.V2.C128_cbid",
    "Verif.V2.C128_trade",
    "Verif.V2.C128_named"
   ],
   "note": ""
  },
  {
   "property": "C129",
   "status": "partial",
   "theorems": [
    "Verif.V1.C129_offer",
    "Verif.V1.C129_partial_price",
    "Verif.V1.C129_partial",
    "Verif.V1.C129_active",
    "Verif.V1.C129_bid",
    "Verif.V1.C129_cbid",
    "Verif.V1.C129_sale",
    "Verif.V1.C129_violated"
   ],
   "note": "VIOLATED by the code: negation proved (_violated), the part that holds is in the _partial theorem. UpdateAskPrice asks for the owner of the token, not for the seller: a later owner can reprice a listing, which counts again when the token is back with the seller."
  },
  {
   "property": "C130",
   "status": "partial",
   "theorems": [
    "Verif.V1.C130_partial",
    "Verif.V1.C130_partial_any",
    "Verif.V1.C130_violated"
   ],
   "note": "VIOLATED by the code: negation proved (_violated), the part that holds is in the _partial theorem. AcceptBid names no price: the bidder can replace the bid by a lower one first."
  },
  {
   "property": "C131",
   "status": "proved",
   "theorems": [
    "Verif.Auction.C131_open",
    "Verif.Auction.C131_winner"
   ],
   "note": ""
  },
  {
   "property": "C132",
   "status": "partial",
   "theorems": [
    "Verif.V2.C132_partial",
    "Verif.V2.C132_partial_lower",
    "Verif.V2.C132_partial_set",
    "Verif.V2.C132_violated"
   ],
   "note": "VIOLATED by the code: negation proved (_violated), the part that holds is in the _partial theorem. one_coin rejects a call without coins, so a fee of zero (or no fee, as after deployment) makes listing impossible."
  },
  {
   "property": "C133",
   "status": "partial",
   "theorems": [
    "Verif.V2.C133_partial",
    "Verif.V2.C133_partial_coll",
    "Verif.V2.C133_partial_ask",
    "Verif.V2.C133_violated"
   ],
   "note": "VIOLATED by the code: negation proved (_violated), the part that holds is in the _partial theorem. Ties are broken by order id, a hash: largest id among bids, smallest among asks."
  },
  {
   "property": "C134",
   "status": "proved",
   "theorems": [
    "Verif.Auction.C134_open",
    "Verif.Auction.C134_close"
   ],
   "note": ""
  },
  {
   "property": "C135",
   "status": "proved",
   "theorems": [
    "Verif.Auction.C135_open",
    "Verif.Auction.C135_prolonged"
   ],
   "note": ""
  },
  {
   "property": "C136",
   "status": "proved",
   "theorems": [
    "Verif.Auction.C136_order",
    "Verif.Auction.C136_swap"
   ],
   "note": ""
  },
  {
   "property": "C137",
   "status": "proved",
   "theorems": [
    "Verif.V1.C137_order",
    "Verif.V1.C137_swap"
   ],
   "note": ""
  },
  {
   "property": "C138",
   "status": "partial",
   "theorems": [
    "Verif.V2.C138_partial_reply",
    "Verif.V2.C138_partial",
    "Verif.V2.C138_violated"
   ],
   "note": "VIOLATED by the code: negation proved (_violated), the part that holds is in the _partial theorem. Ids of bids come from a counter shared by all collections: a bid on another collection that is executed first changes the id. Replies are the same in either order (C138_partial_reply), and so is the result unless both calls take a number (C138_partial)."
  },
  {
   "property": "C139",
   "status": "proved",
   "theorems": [
    "Verif.Together.C139_alone",
    "Verif.Together.C139_kept",
    "Verif.Together.C139_once",
    "Verif.Together.C139_backed"
   ],
   "note": ""
  },
  {
   "property": "C140",
   "status": "proved",
   "theorems": [
    "Verif.Together.C140_refused"
   ],
   "note": ""
  },
  {
   "property": "C141",
   "status": "partial",
   "theorems": [
    "Verif.V2.C141_partial",
    "Verif.V2.C141_violated"
   ],
   "note": "VIOLATED by the code: negation proved (_violated), the part that holds is in the _partial theorem. Each fee is rounded up for itself: with fees of 2 % and 5 % a bid of 101 leaves the seller 92, a bid of 100 leaves 93. The price is no lower, the proceeds fall by at most 3 (C141_partial)."
  },
  {
   "property": "C142",
   "status": "partial",
   "theorems": [
    "Verif.V2.C142_partial",
    "Verif.V2.C142_partial_price",
    "Verif.V2.C142_partial_blocked",
    "Verif.V2.C142_violated"
   ],
   "note": "VIOLATED by the code: negation proved (_violated), the part that holds is in the _partial theorem. A listing at a price that does not cover the rounded fees is matched first and cannot be settled: all calls for any token of the collection fail until it is withdrawn (C142_partial_blocked). If all listings within the limit can be settled the property holds (C142_partial, C142_partial_price)."
  },
  {
   "property": "C143",
   "status": "proved",
   "theorems": [
    "Verif.V2.C143_reach_finite",
    "Verif.V2.C143_diary_finite",
    "Verif.V2.C143_hist_finite",
    "Verif.V2.C143_ideal",
    "Verif.V2.C143_states",
    "Verif.V2.C143_calls",
    "Verif.V2.C143_account",
    "Verif.V2.C143_bids",
    "Verif.V2.C143_asks",
    "Verif.V2.C143_fresh",
    "Verif.V2.C143_books",
    "Verif.V2.C143_trade",
    "Verif.V2.C143_reserves",
    "Verif.V2.C143_asks_run",
    "Verif.V2.C143_needed"
   ],
   "note": ""
  },
  {
   "property": "C144",
   "status": "partial",
   "theorems": [
    "Verif.Auction.C144_stuck",
    "Verif.Auction.C144_hook",
    "Verif.Auction.C144_partial",
    "Verif.Auction.C144_violated"
   ],
   "note": "VIOLATED by the code: negation proved (_violated), the part that holds is in the _partial theorem. A seller who names a payee that the bank refuses makes settlement impossible (C144_stuck: whatever happens, the auction stays; C144_hook: the hook fails). C144_partial: otherwise anybody can settle."
  },
  {
   "property": "C145",
   "status": "proved",
   "theorems": [
    "Verif.Auction.C145_auction_call",
    "Verif.Auction.C145_auction_bid",
    "Verif.Auction.C145_auction_cancel",
    "Verif.V1.C145_v1_call",
    "Verif.V1.C145_v1_bid",
    "Verif.V1.C145_v1_cbid",
    "Verif.V2.C145_v2_call",
    "Verif.V2.C145_v2_bid",
    "Verif.V2.C145_v2_cbid",
    "Verif.V2.C145_v2_ask",
    "Verif.V2.C145_v2_sale"
   ],
   "note": ""
  },
  {
   "property": "C146",
   "status": "partial",
   "theorems": [
    "Verif.V2.C146_finder",
    "Verif.V2.C146_recipient",
    "Verif.V2.C146_jam",
    "Verif.V2.C146_partial",
    "Verif.V2.C146_violated"
   ],
   "note": "VIOLATED by the code: negation proved (_violated), the part that holds is in the _partial theorem. The cheapest listing is matched; if its recipient (C146_recipient) or finder (C146_finder) is refused, all calls for any token of the collection at or above its price fail (C146_jam)."
  },
  {
   "property": "C147",
   "status": "partial",
   "theorems": [
    "Verif.V2.C147_finder",
    "Verif.V2.C147_jam",
    "Verif.V2.C147_partial",
    "Verif.V2.C147_violated"
   ],
   "note": "VIOLATED by the code: negation proved (_violated), the part that holds is in the _partial theorem. The best bid is matched; if its finder is refused (C147_finder), all listings at or below its price fail (C147_jam). Listing above all bids works (C147_partial)."
  },
  {
   "property": "C148",
   "status": "partial",
   "theorems": [
    "Verif.Auction.C148_stray",
    "Verif.Auction.C148_violated",
    "Verif.Auction.C148_partial",
    "Verif.Auction.C148_partial_custody",
    "Verif.V1.C148_stray",
    "Verif.V1.C148_violated",
    "Verif.V1.C148_partial",
    "Verif.V2.C148_stray",
    "Verif.V2.C148_violated",
    "Verif.V2.C148_partial",
    "Verif.V2.C148_self"
   ],
   "note": "VIOLATED by the code: negation proved (_violated), the part that holds is in the _partial theorem. Tokens owned by a contract without a listing or auction stay there for ever (C148_stray)."
  },
  {
   "property": "C149",
   "status": "partial",
   "theorems": [
    "Verif.Auction.C149_surplus",
    "Verif.Auction.C149_violated",
    "Verif.V1.C149_surplus",
    "Verif.V1.C149_violated",
    "Verif.V1.C149_partial",
    "Verif.V2.C149_surplus",
    "Verif.V2.C149_violated",
    "Verif.V2.C149_partial"
   ],
   "note": "VIOLATED by the code: negation proved (_violated), the part that holds is in the _partial theorem. The account's surplus over what is owed never shrinks (C149_surplus)."
  },
  {
   "property": "C150",
   "status": "partial",
   "theorems": [
    "Verif.V1.C150_partial_now",
    "Verif.V1.C150_partial",
    "Verif.V1.C150_violated",
    "Verif.V2.C150_partial_now",
    "Verif.V2.C150_partial",
    "Verif.V2.C150_partial_bound",
    "Verif.V2.C150_violated"
   ],
   "note": "VIOLATED by the code: negation proved (_violated), the part that holds is in the _partial theorem. The fees at the time of the sale count (C150_partial: settings unchanged; C150_partial_now: current settings)."
  },
  {
   "property": "C151",
   "status": "partial",
   "theorems": [
    "Verif.V2.C151_partial",
    "Verif.V2.C151_violated"
   ],
   "note": "VIOLATED by the code: negation proved (_violated), the part that holds is in the _partial theorem. Orders in the former denom can be accepted by name; matched trades are in the current denom."
  },
  {
   "property": "C152",
   "status": "partial",
   "theorems": [
    "Verif.Auction.C152_partial_iff",
    "Verif.Auction.C152_violated",
    "Verif.V1.C152_partial_answers",
    "Verif.V1.C152_partial_refuses",
    "Verif.V1.C152_violated",
    "Verif.V2.C152_answered_iff"
   ],
   "note": "VIOLATED by the code: negation proved (_violated), the part that holds is in the _partial theorem. v1 and reserve auction: addresses in some offsets are not validated. Holds in v2 (C152_answered_iff)."
  },
  {
   "property": "C153",
   "status": "proved",
   "theorems": [
    "Verif.Auction.C153_auctions",
    "Verif.Auction.C153_prices",
    "Verif.V1.C153_asks",
    "Verif.V1.C153_bids",
    "Verif.V1.C153_collection_bids",
    "Verif.V2.C153_asks",
    "Verif.V2.C153_bids",
    "Verif.V2.C153_collection_bids"
   ],
   "note": ""
  },
  {
   "property": "C154",
   "status": "partial",
   "theorems": [
    "Verif.Auction.C154_by_seller",
    "Verif.Auction.C154_min_prices",
    "Verif.Auction.C154_by_end",
    "Verif.V1.C154_partial_price",
    "Verif.V1.C154_partial_keys",
    "Verif.V1.C154_violated",
    "Verif.V2.C154_asks",
    "Verif.V2.C154_bids",
    "Verif.V2.C154_cbids",
    "Verif.V2.C154_own"
   ],
   "note": "VIOLATED by the code: negation proved (_violated), the part that holds is in the _partial theorem. v1 listings by expiry start over if the last bid shown is gone. Holds in full in v2 and for the auctions of a seller."
  },
  {
   "property": "C155",
   "status": "proved",
   "theorems": [
    "Verif.Auction.C155_calls",
    "Verif.Auction.C155_block",
    "Verif.Auction.C155_chain",
    "Verif.V1.C155_messages",
    "Verif.V1.C155_orders",
    "Verif.V2.C155_messages",
    "Verif.V2.C155_orders"
   ],
   "note": ""
  },
  {
   "property": "C156",
   "status": "proved",
   "theorems": [
    "Verif.Auction.C156_reserve",
    "Verif.V1.C156_ask",
    "Verif.V1.C156_bid",
    "Verif.V1.C156_cbid",
    "Verif.V2.C156_ask",
    "Verif.V2.C156_bid",
    "Verif.V2.C156_cbid"
   ],
   "note": ""
  },
  {
   "property": "C157",
   "status": "partial",
   "theorems": [
    "Verif.V1.C157_partial_fresh",
    "Verif.V1.C157_partial_idle",
    "Verif.V1.C157_violated"
   ],
   "note": "VIOLATED by the code: negation proved (_violated), the part that holds is in the _partial theorem. A listing is good again when the token returns to its seller. Holds if no listing by the account was left (C157_partial_fresh)."
  },
  {
   "property": "C158",
   "status": "partial",
   "theorems": [
    "Verif.V1.C158_partial_others",
    "Verif.V1.C158_partial_bids",
    "Verif.V1.C158_violated"
   ],
   "note": "VIOLATED by the code: negation proved (_violated), the part that holds is in the _partial theorem. Bids for a token with an expired listing are refused. Holds for all other calls (C158_partial_others)."
  },
  {
   "property": "C159",
   "status": "partial",
   "theorems": [
    "Verif.Auction.C159_partial_first",
    "Verif.Auction.C159_partial_settings",
    "Verif.Auction.C159_partial_double",
    "Verif.Auction.C159_partial_sudo",
    "Verif.Auction.C159_violated"
   ],
   "note": "VIOLATED by the code: negation proved (_violated), the part that holds is in the _partial theorem. Increment and extension are those at the time of the bid. Holds for first bids and with unchanged settings."
  },
  {
   "property": "C160",
   "status": "proved",
   "theorems": [
    "Verif.Auction.C160_auction",
    "Verif.V1.C160_v1",
    "Verif.V2.C160_v2"
   ],
   "note": ""
  },
  {
   "property": "C161",
   "status": "proved",
   "theorems": [
    "Verif.Auction.C161_auction",
    "Verif.Auction.C161_auction_deploy",
    "Verif.V1.C161_v1",
    "Verif.V1.C161_v1_deploy",
    "Verif.V2.C161_v2_deploy"
   ],
   "note": ""
  },
  {
   "property": "C162",
   "status": "proved",
   "theorems": [
    "Verif.Auction.C162_auction",
    "Verif.V2.C162_buyer",
    "Verif.V2.C162_seller"
   ],
   "note": ""
  },
  {
   "property": "C163",
   "status": "partial",
   "theorems": [
    "Verif.V2.C163_partial_listed",
    "Verif.V2.C163_partial",
    "Verif.V2.C163_violated"
   ],
   "note": "VIOLATED by the code: negation proved (_violated), the part that holds is in the _partial theorem. A bid accepted for a listed token uses recipient and finder of the listing. Holds for all other calls."
  },
  {
   "property": "C164",
   "status": "proved",
   "theorems": [
    "Verif.Auction.C164_auction",
    "Verif.V2.C164_closed",
    "Verif.V2.C164_once",
    "Verif.V2.C164_again"
   ],
   "note": ""
  },
  {
   "property": "C165",
   "status": "partial",
   "theorems": [
    "Verif.V1.C165_partial_v1",
    "Verif.V1.C165_v1_violated",
    "Verif.V2.C165_partial_v2",
    "Verif.V2.C165_v2_violated"
   ],
   "note": "VIOLATED by the code: negation proved (_violated), the part that holds is in the _partial theorem. `SetBid` sent again leaves a bid on the token that the caller has just bought. Holds for `AcceptAsk`, `BuySpecificNft` (v2), `BuyNow` and `BuyFor` (v1)."
  },
  {
   "property": "C166",
   "status": "partial",
   "theorems": [
    "Verif.Auction.C166_partial",
    "Verif.Auction.C166_partial_winner",
    "Verif.Auction.C166_violated"
   ],
   "note": "VIOLATED by the code: negation proved (_violated), the part that holds is in the _partial theorem. The trading fee is read at settlement. Holds while trading fee and fair-burn address stay the same; winner and total are always the same."
  },
  {
   "property": "C167",
   "status": "proved",
   "theorems": [
    "Verif.V1.C167_bid",
    "Verif.V1.C167_collection",
    "Verif.V1.C167_replace",
    "Verif.V1.C167_replace_collection"
   ],
   "note": ""
  },
  {
   "property": "C168",
   "status": "proved",
   "theorems": [
    "Verif.V2.C168_surplus"
   ],
   "note": ""
  },
  {
   "property": "C169",
   "status": "proved",
   "theorems": [
    "Verif.V2.C169_limit",
    "Verif.V2.C169_order"
   ],
   "note": ""
  }
 ]
}
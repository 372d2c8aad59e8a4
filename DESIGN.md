# Formal model of public-awesome/marketplace — design

Source: `/repo` (Rust, CosmWasm). Three contracts and one library are modelled:

| part | Rust | Lean |
|---|---|---|
| shared library | `packages/sg-marketplace-common/src` | `Verif/Common/*` |
| marketplace v2 | `contracts/stargaze-marketplace-v2/src` | `Verif/V2/*` |
| reserve auction | `contracts/reserve-auction/src` | `Verif/Auction/*` |
| marketplace v1 | `contracts/marketplace/src` | `Verif/V1/*` |
| chain: bank, cw721, message dispatch, re-entrancy | (not in repo; CosmWasm semantics) | `Verif/Base/*` |

## 1. How things are modelled

* Strings (addresses, denoms, token ids, order ids) are byte lists `Bytes = List UInt8`; ordering is
  lexicographic on bytes, as in the key-value store.
* Integers (`u64`, `u128`, `Uint128`, `Decimal` atomics, `Timestamp` nanos) are `Nat` with explicit
  overflow/underflow checks returning an error at each place where Rust would error or panic
  (`overflow-checks = true`, so an arithmetic panic aborts the transaction exactly like an error).
* A contract handler is a total function
  `Ctx → sender → funds → State → Except Err (State × List Msg)`; `Ctx` holds block time/height, the
  contract's own address, the address validator and **all answers of cross-contract queries**
  (universally quantified; constrained only for conforming collections).
* Storage maps are association lists with unique keys (`AMap`). Secondary indexes
  (`IndexedMap`/`MultiIndex`) are modelled as the sorted view of the primary map by (index key, pk). That this view is what
  the flat key-value store gives is proved for v2 (C104), the auction (C105) and v1 (C106): `Base/Kv.lean` models `Map`, `IndexedMap` and `MultiIndex` of
  cw-storage-plus over one byte-keyed store (length-prefixed key components, index entries holding the length of the primary
  key), `V2/Store.lean`, `Auction/Store.lean` and `V1/Store.lean` the layout of state.rs; the model state and the store are related over all histories. Record values are kept
  as typed cells (no JSON).
* `Base/Chain.lean` is the chain: a small-step machine on (world, stack of pending messages). A call
  moves the attached funds, runs the handler and pushes its messages; bank sends and transfers on
  conforming collections execute atomically; a message to a non-conforming collection (or a hook
  contract) hands control to an adversary that may make any number of nested calls from any account
  other than the contract itself, and may change anything outside the contract, before returning.
  An error reverts, i.e. is simply not a step. Invariants are proved by induction over machine steps
  for every stack, so they cover re-entrancy.

## 2. Trusted base

* Lean 4 kernel. Axioms used by theorems: at most `propext`, `Classical.choice`, `Quot.sound`
  (checked with `#print axioms`). No axioms are declared; no `sorry`, `native_decide`, `bv_decide`.
* That the Lean definitions transcribe the Rust (each carries file and lines).
* External behaviour assumed (not in /repo): cosmwasm-std (`has_coins`, `Decimal`, `Uint128`), cw-utils
  (`must_pay`, `may_pay`, `one_coin`, `nonpayable`, `NativeBalance`, `Expiration`, `Duration`),
  cw-storage-plus (key encoding, `save`/`remove`/`range` as in `Base/Kv.lean`), sg-index-query (option unpacking), blake2 (only:
  collision-free, as an explicit hypothesis where needed; by C143 it is enough that no collision is met), sg1/stargaze-fair-burn (burns/distributes
  exactly the coins given), sg-marketplace-common **1.1.0** from crates.io (used by reserve-auction:
  the functions used are parameters (`Auction.Lib`), the hypotheses are `Auction.Spec.LibOk` — `only_owner` checks the
  reported owner, `has_approval` the reported approval, `only_tradable` the reported start, the fee split emits payments only and they sum to the sale coin — and,
  for C30 only, `LibCalm`: the library does not panic, for C88 only, `LibGrants`: its checks pass when what they check holds;
  `Auction/Lib0.lean` and `PropsLive.lean` show that all can be met; `unpack_query_options` of the same crate is taken to
  turn `start_after` into an exclusive bound in the direction of the listing),
  royalty registry contract (its `InitializeCollectionRoyalty` does not re-enter or move funds).
* Conforming cw721 collection: ownership changes only by a transfer from owner or approved spender;
  tokens owned by the contract under study move only by its own messages; `OwnerOf` answers truthfully.
* Several contracts on one chain (C139, C140): none of the contracts studied is the caller of another one, and none of them is
  approved for a token of another one (they send no `Approve`). Calls nest as submessages do: what one of them emits is worked off before
  the caller goes on.
* The bank accepts payments to every address, except in C144–C147, which are about chains that refuse payments to some addresses
  (module accounts). There such a payment is never executed, which makes the transaction fail; refused addresses make no calls.

The query entry points are in `Entry.lean` of each contract (the functions in `Query.lean` get validated addresses). v1 token ids are `Nat` (only C73 needs `< 2^32`).
v1 `fair_burn` of zero coins counts as accepted by the chain.

Events: `V2/Events.lean`, `Auction/Events.lean` and `V1/Events.lean` give every entry point again with the events of its response;
`executeE_drop`, `sudoE_drop` prove that leaving the events out gives back the function without (errors included), and C107–C115
are about the events. Attributes of a response are an event of type `wasm`, as on the chain. The `to_string` of integers, coins,
timestamps and decimals is that of cosmwasm_std; wasmd's other additions (the prefix `wasm-`, `_contract_address`, trimming) and
events added by sg-marketplace-common 1.1.0 and by sg1 `fair_burn` are not modelled.

Not modelled: JSON (de)serialisation, gas, schema, the parser and order of the crate
semver (a parameter, total order assumed; an instance for versions of three numbers), error texts (errors are classified, and any error reverts).

## 3. Plan per property

Status is in MANIFEST.json; ids as in properties.jsonl.

* **C01, C02, C22** arithmetic of `build_payments`, `divide_protocol_fees`, royalty cap: functions over
  `Nat` atomics, induction over the fee list, spec = closed formulas (ceil division).
* **C03, C27, C44** solvency: per-handler conservation law + machine invariant
  `balance ≥ escrow + pending` by induction on steps.
* **C04, C05, C42** exact accounting per handler; C05 and C42 are expected violations: negation proved by a
  concrete reachable execution.
* **C06, C08, C36, C47** liveness: from the reachable-state invariants construct the machine run.
* **C07, C31** custody: weakest-precondition style invariant over the pending-message stack.
* **C09, C10, C15, C19, C20, C23, C29, C32, C43, C48–C51, C53** handler inversion: case analysis on each
  message with success hypothesis; spec predicates over state before/after and messages.
* **C11** book never crossed: invariant over histories, using C12/C13 matching lemmas and C16/C25.
* **C12, C13, C24, C59** sorted-view lemmas: head of a sorted filtered list is extremal; paging lemma.
* **C14** from C12/C13 and handler inversion.
* **C16, C25** injectivity of concatenation / join on byte strings.
* **C17, C18, C30, C41, C52, C55, C56** state invariants by induction over histories.
* **C21, C26, C38, C39, C40, C46, C52, C57, C58** expected violations: negation with witness run plus the
  part that does hold (`_partial`).
* **C28, C33, C34, C35, C37** auction handler inversion and time arithmetic.
* **C45** floor arithmetic.
* **C54** hooks: message dispatch with `reply_on_error`; compare runs with and without hooks.
* **C60, C61** list induction.
* **C67–C72** v1 queries: `Spec.Paged` (one sorted duplicate-free list of exactly the selected orders; `n` pages are its
  first `n * size` items) from `paged_of`, a lemma about filtered scans of a strictly sorted index.
* **C73** big-endian and length-prefix encodings compare like their components (`Base/KeyEnc.lean`).
* **C74–C76** handler inversion with frame conditions.
* **C77–C80** v2 liveness: `Base/Drain.lean` runs a list of sends and transfers to the end when the balance covers it
  (C03); the handlers are run forward from explicit hypotheses (`Spec.Settles`, `Spec.HasToSell`, `Spec.ValidDetails`).
* **C81, C82** auction handler inversion with frame conditions.
* **C83–C85** auction queries: as C67–C73, with `Base/Listing.lean` shared between v1 and the auction.
* **C86–C88** auction liveness: as C77–C80, from C27 (solvency) and C31 (custody); C88 uses `Spec.LibGrants`.
* **C89–C94** v1 handler inversion with frame conditions (`execute_eff`); C93 is the conservation law behind C44.
* **C96** lists without duplicates: invariant over histories of governance messages.
* **C95, C97, C98** expected violations. C98 needs that a zero send can never be executed (`Base/Stuck.lean`).
* **C99–C103** v1 liveness: as C77–C80, from C44 (solvency) and forward runs of the handlers; `Spec.Payable` says that no part
  of the split rounds to zero.
* **C104, C105, C106** refinement: the store represents the typed maps (`Table.Rep`), by induction over the writes; disjointness of
  key spaces from the length prefixes; listings from uniqueness of sorted lists and order preservation of the encoding. Iteration goes from a
  first key to an end key that is the prefix plus one with carry, as in prefix.rs; `range_within` shows that this meets the cells with
  the prefix and no other (the last component of the prefix must have less than 65535 bytes). cw-storage-plus
  panics when a key component other than the last has 65536 bytes or more; the typed models do not have this panic (it reverts the call).
* **C107, C108** events: inversion of the entry points with events (`executeE_ev`: one event per call, with the state change and
  messages that go with it), then induction over histories for an observer that is specified separately (`EventSpec.lean`) and
  gives up when an event is missing or contradicts earlier ones.
* **C109, C110** the same for the reserve auction, with calls and hooks; a batch of settlements needs that the auctions it
  settles are stored under different keys.
* **C111, C112, C113** the same for v1, where a response can have up to three events and a failing hook calls `reply`; the observer
  reads response by response.
* **C114** inversion again, with the values of all attributes of the last event. **C115** the auction observer also keeps the halt
  windows (`Watch`); whether `sudo_end_block` forgets the oldest one depends on the end time of the first due auction, which the
  observer knows from earlier events.
* **C116, C117** migrations (`Common/Migrate.lean`): induction over the life of a deployment. C117 is an expected violation.
* **C118–C120** exact reserves: `Base/Ledger.lean` labels the steps of the machine (`Sys.Did`, `Sys.Hist`; equivalent to `Sys.Steps`) so that a
  theorem can speak of all calls, gifts and payments of a history; induction from the conservation law of each handler.
* **C121** the number of waiting auctions as a sum over the stored auctions; a run of the hook takes a prefix of a list sorted by end.
* **C122** non-interference: `Base/Keep.lean` restricts a map; every handler commutes with the restriction of the state to a
  collection, calls about others leave the restriction alone, and both lift to histories.
* **C123** the same for the tokens of the auction; the end-block hook is a sequence of settle calls (induction over the batch).
* **C124** the same for v1, for any set of orders that contains (or avoids) those named by the call.
* **C125** one account's books in v2: `Spec.Billed` names the trade of each call from the orders involved (C12's vocabulary), the escrow of
  the account changes by what the books say, induction over the list of calls (`Spec.Diary`). **C126** the same for the auction,
  **C127** for v1.
* **C128** authorship in v2: what a lookup finds was put there by a call of the diary and has stood since (`Spec.Stands`, one induction for
  all kinds of orders); a trade joins the calls behind its two orders. **C129** the same for v1 (expected violation: prices).
  **C130** (expected violation) compares two states of a history. **C131** an auction's bids and reserves as lists over the diary since its creation.
* **C132, C133** (expected violations) from the handlers' effects and from the order of index keys. **C134** the diary with block
  times; a relation `Turn` for what one step does to the end of an auction.
* **C135** the same diary: a relation `Pace` for what one step does to price and end; induction, then powers. **C136, C137, C138** from
  C123, C124, C122: restricted to a token (set of orders, collection) a list of calls does what its calls about it do. C138 is an
  expected violation (the counter); what is left is that the counter affects ids only.
* **C139** a machine for a family of contracts with one bank and one ownership map (`Base/Together.lean`); the projection to each member is a
  run of its own machine (simulation, induction over steps), which carries over C04, C20, C46 and what else is known of it. **C140** from C139:
  the owner is the other contract, and the handlers that offer a token fail unless the caller owns it.
* **C141, C142** (expected violations) compare two states: matching is monotone in the set of orders (C12, C13), rounding costs less than one
  unit per fee, and the handlers use nothing else of the state.

* **C143** discharges the hypothesis that the hash is injective: only the hashes of the strings hashed (`Spec.hashed`) matter to a call, an
  injection on a finite list extends to one on all strings (`extend`), so a history in which no collision is met is a history of a marketplace
  with an injective hash and inherits what is proved about the latter. `C143_needed` shows what a collision does.

* **C144–C147** restrict runs to those in which no refused payment is executed (`Base/Refuse.lean`): a refused payment on the stack stays
  there (`Refused.stays`), and without one the stack drains (`drainB`). Owners of orders have made the calls that created them (C128, C129,
  C131), so they are not refused. C144, C146, C147 are expected violations with a general description of the harm
  (`C144_stuck`, `C146_jam`, `C147_jam`) beside the witness.

* **C148, C149** ask what can ever leave the contract's account. Both are expected violations; `Base/Strand.lean` has the two invariants that
  show it: a token the contract owns without a claim on record is moved by no step (the custody proofs give `Untouched` for every call), and
  solvency with any constant on top of what is owed is preserved by every step. Changing the code (migration) is outside the model.

* **C150, C151** are about orders that were placed under other settings (`PropsLater.lean` of v2 and v1). C150 compares two points of a run
  with the same listing at both; the fees charged are recomputed from the settings by `Spec.proceeds` (v2) and `Spec.leaves` (v1). The auction contract also charges the
  trading fee in force at settlement (C35 `Outcome.sold`), but how much that leaves is decided by the external library.

* **C152, C153** are about the query entry points (`Entry.lean`, `PropsView.lean` of each contract). `Base/View.lean` says what every page of an
  index is: entries of the index, each once, no more than the limit. The specification lists for each query message what it asks for.

* **C154** takes one state for each page (`Base/Tour.lean`). It needs of a listing only that a page is the beginning of the sorted list of what
  comes after the offset, which is what C24, C57, C59, C69, C83, C84 say about one state and all offsets.
* **C155** counts the messages and the changed keys (`Base/OneKey.lean`). The bounds for v2 and v1 are met by the examples. For the auction the length of
  the library's split is a hypothesis (`Splits`), shown for the library of the examples. Work inside queries to other contracts is not counted.

* **C156** compares two executions from one state (`PropsRedo.lean` of each contract): `C156_ask`, `C156_reserve` have equal states, `C156_bid`, `C156_cbid` of
  v2 states that agree up to the id (`SameBut`), and messages that agree up to change (`SameButChange`). That both succeed is assumed: they need not, since updates do not check the trading start (C21),
  and do not pay the listing fee.

* **C157** (`V1/PropsReturn.lean`) speaks about two points of a run and the ledger between them (`Sys.Hist`): the account has no entry in it. Transfers
  outside the contract are environment steps. v2 and the auction take listed tokens into custody (C07, C31), so the question does not arise there.
* **C158** (`V1/PropsExpired.lean`) compares a state with the same state without the listing, by `only` of C124. The two accept calls are included
  although they name the listing: they drop it.
* **C159** (`Auction/PropsRules.lean`) compares a bid at two states of a history that hold the same auction (`fate`: what becomes of the auction, and
  the messages). `C159_partial_double` uses that a valid configuration has an increment below 100 %.

* **C160** (`PropsAccepts.lean` of v2, v1 and the auction) is an equivalence between success of `execute` and a list of conditions
  (`Spec.Accepts`, in v2 `Spec.Accepted`) written without the helper functions of the model. v2: `Meets` and `CheapestWithin` say which order is
  met, with the tie-break by id; `Covers` compares amounts and does not mention the normalised balance; `Adds` and the `+ 1` in `BuysAny` are
  the sums that may overflow. For the auction the checks made by the external library are named, not unfolded. v1: `CanSplit` is the exact
  condition under which a price can be divided, with the intermediate results that may overflow.
* **C161** (`PropsGovern.lean` of the three) does the same for `sudo`, the block hooks and `instantiate`. The end-block part rests on
  `Turn`, a description of the batch by end second and token without reference to the index; `Turn.same` shows that it determines
  the batch.
* **C162** (`V2/PropsShown.lean`, `Auction/PropsShown.lean`) relates queries and trades. In v2 the first entry that meets a bound on the price
  is the first entry of the unbounded listing, if that meets it. For the auction the order of the encoded keys used by the hook (C85) and
  the order of the query (C84) agree, so the auctions that are over are an initial part of the listing.
* **C163** (`V2/PropsNamed.lean`) relates recipient and finder in a call to those of the trade that it makes.
* **C164** (`V2/PropsOnce.lean`, `Auction/PropsOnce.lean`) excludes replay. In v2 the counter that is part of every bid id only grows, so an
  id that was given out and is closed stays closed. The auction part follows from C28.
* **C165** (`V2/PropsTwice.lean`, `V1/PropsTwice.lean`) is about a purchase that is sent twice: the second call finds no listing, and fails
  unless it is a `SetBid`.
* **C166** (`Auction/PropsSettler.lean`) compares the messages of any two settlements of one auction, by calls or by the end-block hook.
* **C167** (`V1/PropsLapsed.lean`) is to bids what C158 is to listings; for bids it holds. It compares each call with the same call in the
  marketplace without the bid.
* **C168** (`V2/PropsChange.lean`) compares a paying call with the same call with more coins attached.
* **C169** (`V2/PropsLimit.lean`) compares a trade with the same call under another limit (`C169_limit`: calls that trade or fail; `C169_order`: placed or changed orders that trade at once). `withLimit` replaces the limit in the message
  and nothing else, `Looser` and `LooserOrder` say which limits ask for less. The conclusion is equality of the state afterwards and of all messages.

## 4. Findings (violations of expected properties)

Each is proved as `Cnn_violated : ¬ Cnn_statement` with a reachable witness; what does hold is in `Cnn_partial*`.

Marketplace v2
* **C05** `AcceptBid`, `AcceptCollectionBid` (and the admin calls) accept attached coins and keep them.
* **C21** the trading start of a collection is checked when orders are created, not when they are accepted or updated.
* **C26** `only_owner` passes when the `OwnerOf` query fails. For conforming collections the transaction cannot complete.
* **C132** `SetAsk` and `SellNft` call `one_coin` before they look up the fee: with a listing fee of zero, and from the deployment until
  the admin sets a positive fee, nothing can be listed at all (`AcceptBid` and `AcceptCollectionBid` still sell without a fee).
* **C133** orders of the same price are matched in the order of their ids (hashes), not of time: the largest id among bids, the smallest among asks.
  (The witness takes the identity for the hash, as a hash is a parameter of the model.)
* **C138** ids of bids are hashes over a counter that all collections share: which id a bid gets, and whether a withdrawal prepared for it works,
  depends on bids on other collections executed before it. Replies do not (`C138_partial_reply`).
* **C141** each fee is rounded up for itself, so that a higher bid can leave the seller less (by at most 3 base units).
* **C142** a listing may ask for less than its fees: at a price of 1 in a collection with a royalty, fees of 1 + 1 are due. Collection buyers are
  matched with the cheapest listing only, so one such listing makes every `SetCollectionBid`, `BuyCollectionNft` and `UpdateCollectionBid`
  in that collection and denom fail (`C142_partial_blocked`), at the cost of a listing fee and for as long as the lister likes.
* **C62** hence, if `OwnerOf` fails for a listed token, a third party's `SellNft` deletes the listing.

Reserve auction
* **C38** `sudo_end_block` selects auctions by whole seconds, `settle_auction` compares nanoseconds: an auction ending later
  in the current second makes the hook fail.
* **C39** `find_stale_halt_info` drops the oldest halt window at every end-block call without due auction, even before the
  window's buffer has passed; an auction ending in the window is then settled.
* **C40** one auction that cannot be settled makes the whole hook fail, in every block, until it is removed.
* **C42** `CreateAuction` accepts and keeps coins above the fee.
* **C84** `AuctionsByEndTime` combines `start_after` with the fixed `end_time`, so a client that pages by `start_after` alone
  gets the same auctions again; it has to advance `end_time` to that of the last auction.
* (C109) The duration of an auction and the maximum duration appear in no event. The dropping of a halt window has no event
  of its own, but can be inferred (C115).
* **C66** `max_auctions_to_settle_per_block as usize` truncates to 32 bits on wasm.

Marketplace v1
* **C46** `payout` rounds `price * share` and `price * (1 - share)` down separately; one unit per sale can stay in the contract
  for ever (nothing can withdraw it).
* **C52** `UpdateAskPrice` does not check `MAX_FIXED_PRICE_ASK_AMOUNT`.
* **C57** `Asks` starts strictly after token 0, so an ask on token 0 is never listed.
* **C58** `ReverseAsks` without `start_before` returns nothing.
* **C67** `Bids` compares the raw bytes of `start_after` with whole primary keys, so every page after the first is empty.
* **C68** `Collections` lists a collection once per ask.
* **C70** the expiry-sorted bid listings restart from the beginning if the offset bid is gone.
* **C95** `BuyNow`/`BuyForToken` with less than the listing price, or on an auction listing, succeed and lock the coins in a bid.
* **C97** `UpdateParams` accepts and ignores `operators`.
* **C98** `payout` and the removal of stale bids send amounts that may round to zero, which the bank refuses: a stale bid whose
  reward rounds to zero cannot be removed by operators, and a sale with a royalty that rounds to zero cannot be made.
* **C129** `UpdateAskPrice` asks for the owner of the token, not for the seller of the listing. Somebody who gets a listed token from the seller
  outside of the marketplace can lower the price of the seller's listing; once the token is back with the seller (and approved, e.g.
  for all tokens), anybody can buy it for that price.
* **C130** `AcceptBid` and `AcceptCollectionBid` name no price: a bidder can replace the bid by a lower one before the call is processed.
* **C111** a purchase emits `set-bid` although no bid is stored, so an observer that reads event by event takes it for an open bid.
* (C111) Instantiation and `UpdateParams` emit no values. `set-ask` omits finder's fee and recipient of the funds, `set-bid` the
  finder's fee; the `sale_type` of `set-bid` is that of the message and says nothing about the listing; a replaced bid is
  not mentioned.
* (C94) Hooks are not told when a sale or a newer order removes a listing or bid, nor about collection bids at all
  (no message registers a hook for them).

Migration
* **C117** `migrate` of marketplace v2 and of the reserve auction writes its own name and version without a look at what was there:
  it takes over a deployment of a later version or of another contract (v1 refuses both).

Chains that refuse payments to module accounts (the contracts accept any valid address as recipient or finder)
* **C144** an auction whose payee is such an account cannot be settled, and makes the hook of the chain fail for all auctions of the batch.
  The high bidder can only hope for a higher bid.
* **C146** a cheap listing with such a recipient or finder makes all calls for any token of its collection fail (at the cost of one listing
  fee and of keeping one token in the contract).
* **C147** a high collection bid with such a finder makes listing any token of the collection below its price fail (at the cost of
  keeping the price of the bid in the contract; it can be withdrawn at any time).

What cannot be taken out again (all three contracts)
* **C148** a token that was transferred to the contract without an order stays there for ever. The same happens to a token whose buyer or
  seller names the contract as the recipient (`C148_self`; v1: `BuyFor`); the address is not checked.
* **C149** coins beyond what is owed to bidders stay there for ever; there is no call that pays them out.
* **C150** fees are those at the time of the sale, also for listings placed before; there is no cap short of 100 % in v2.
* **C151** orders in a collection's former denom can still be accepted by name.
* **C152** v1 and reserve auction: some offsets are not validated. v1: Bids, BidsSortedByPrice, ReverseBidsSortedByPrice and (their collection) the
  collection bids sorted by price; reserve auction: both listings of auctions. The listing then goes on from where such a key would be.
* **C154** v1: paging through bids by expiry shows bids again if the last one of a page is withdrawn before the next page is asked for (cause as in C70).

* **C157** v1: a listing survives the transfer of its token and is good again when the token comes back, without notice to the owner.
* **C158** v1: an expired listing blocks all bids for its token until somebody entitled removes or replaces it.
* **C159** auction: `UpdateParams` changes the increment and the extension of running auctions.
* **C163** v2: `AcceptBid` and `AcceptCollectionBid` ignore recipient and finder in the call if the caller has listed the token; the
  money goes to the recipient of the listing.
* **C165** v1, v2: `SetBid` buys at once if the token is listed at (v2: below) the bid. Sent again it leaves an open bid on a token that the
  bidder now owns, and the coins are held until the bid is removed.
* **C166** auction: the trading fee in force at settlement is taken, not that at the last bid or at the end of the auction. A fee raised
  after the end, before anybody settles, reduces what the seller gets.

## 5. Mutation tests

`seeded/LOG.jsonl` records seeded bugs, one per line: the definition edited, the edit, the English claim it breaks, and the
theorems whose proofs fail. Since a proof script can fail for reasons unrelated to the truth of the statement, each mutant
was also falsified: in a copy of the mutated model with all proofs of properties dropped, `False` was derived from the statement of
a listed theorem by a concrete run. Where no statement could be falsified the property was tightened (recorded in the entry)
or the mutant is equivalent (also recorded). Ids: `v2-`, `ra-`, `v1-` edit the models of the three contracts, `st-` the store layer
(key layout, index maintenance, iteration) under C104–C106, `e1-`, `e2-`, `ea-` the events of v1, v2 and the auction under C107–C115,
`mg-` the migrations under C116, C117, and, the three models again, `p2-`, `pa-`, `p1-` under C121–C127 (backlog, isolation, books),
`q2-`, `qa-`, `q1-` under C128–C134 (authorship, terms, clock), `s2-`, `sa-`, `s1-`, `sx-` under C135–C142 (cost, order of calls, side by side, depth),
`t2-`, `ta-`, `t1-` under C143–C147 (hashes, refused payments), `u2-`, `ua-`, `u1-` under C148–C156 (stranded assets, later settings, queries,
paging, size, redo), `w2-`, `wa-`, `w1-` under C157–C160 (returned tokens, expired listings, changed settings, accepted calls), `x2-`, `xa-`, `x1-`
under C161 (accepted governance calls), `y2-`, `ya-` under C162, C163 (queries against trades, named recipients), `z2-`, `za-` under C164 (replay),
`b2-`, `b1-` under C165 (purchases sent twice), `ba-` under C166 (settlers), `c1-` under C167 (expired bids), `d2-` under C168 (surplus coins), `el-` under C169 (limits). Entries with a `note` were only refuted, that is the named theorem was
shown false in the mutant from its statement; the other theorems were not rebuilt for them.

/-
contracts/marketplace/src/query.rs: the queries of marketplace v1. Line numbers refer to query.rs unless another file is named.

The entry point, which validates addresses, is in Entry.lean. Simplifications: an index iterates
in the structural order of its keys (C73 shows that this is the byte order of the encoded keys). Index entries are the
orders of the primary map, keyed by index fields of the stored value and primary key.
-/
import Verif.V1.Model
import Verif.Base.KeyEnc
import Verif.Base.Listing

namespace Verif.V1
open Verif

/-- `Timestamp::seconds` -/
def seconds (t : Nat) : Nat := t / NS

/-- order of primary keys: state.rs 89 `AskKey`, 168 `BidKey`, 245 `CollectionBidKey` -/
def askPkLe : AskKey → AskKey → Bool := lexLe lenLe natLe
def bidPkLe : BidKey → BidKey → Bool := lexLe lenLe (lexLe natLe bLe)
def cbidPkLe : CBidKey → CBidKey → Bool := lexLe lenLe bLe

/-- the filter on `include_inactive`, 251-257 -/
def showAsk (incl : Option Bool) (a : Ask) : Bool :=
  match incl with
  | some true => true
  | _ => a.isActive

/-- 210-230 `query_collections`: one output per ask; an exclusive prefix bound leaves out all asks of that collection -/
def queryCollections (s : State) (start : Option Addr) (limit : Option Nat) : List Addr :=
  (((scan askPkLe s.asks.l false none none).filter (fun e =>
    match start with
    | none => true
    | some c => ltK lenLe c e.1.1)).take (querySize limit)).map (fun e => e.1.1)

/-- 232-266 `query_asks`, index state.rs 111-115 -/
def queryAsks (s : State) (c : Addr) (incl : Option Bool) (start limit : Option Nat) : List Ask :=
  page askPkLe (index s.asks (fun a => decide (a.collection = c)) (fun k _ => k)) false (showAsk incl)
    (some (c, start.getD 0)) (querySize limit)

/-- 268-302 `reverse_query_asks` -/
def reverseQueryAsks (s : State) (c : Addr) (incl : Option Bool) (start limit : Option Nat) : List Ask :=
  page askPkLe (index s.asks (fun a => decide (a.collection = c)) (fun k _ => k)) true (showAsk incl)
    (some (c, start.getD 0)) (querySize limit)

/-- entries of the `collection_price` index of asks, state.rs 116-120 -/
def askPrices (s : State) (c : Addr) : List ((Nat × AskKey) × Ask) :=
  index s.asks (fun a => decide (a.collection = c)) (fun k a => (a.price, k))

/-- 304-334 `query_asks_sorted_by_price`; offset: msg.rs 177 `AskOffset` (price, token) -/
def queryAsksSortedByPrice (s : State) (c : Addr) (incl : Option Bool) (start : Option (Nat × Nat)) (limit : Option Nat) :
    List Ask :=
  page (lexLe natLe askPkLe) (askPrices s c) false (showAsk incl) (start.map (fun o => (o.1, (c, o.2)))) (querySize limit)

/-- 336-366 `reverse_query_asks_sorted_by_price` -/
def reverseQueryAsksSortedByPrice (s : State) (c : Addr) (incl : Option Bool) (start : Option (Nat × Nat))
    (limit : Option Nat) : List Ask :=
  page (lexLe natLe askPkLe) (askPrices s c) true (showAsk incl) (start.map (fun o => (o.1, (c, o.2)))) (querySize limit)

/-- 368-377 `query_ask_count`; `as u32` -/
def queryAskCount (s : State) (c : Addr) : Nat :=
  (index s.asks (fun a => decide (a.collection = c)) (fun k _ => k)).length % 2 ^ 32

/-- 379-412 `query_asks_by_seller`, index state.rs 121-125; offset: msg.rs 208 `CollectionOffset` -/
def queryAsksBySeller (s : State) (seller : Addr) (incl : Option Bool) (start : Option (Addr × Nat)) (limit : Option Nat) :
    List Ask :=
  page askPkLe (index s.asks (fun a => decide (a.seller = seller)) (fun k _ => k)) false (showAsk incl) start (querySize limit)

/-- 414-418 `query_ask` -/
def queryAsk (s : State) (c : Addr) (tok : Nat) : Option Ask := s.asks.get? (c, tok)

/-- 420-429 `query_bid` -/
def queryBid (s : State) (c : Addr) (tok : Nat) (bidder : Addr) : Option Bid := s.bids.get? (c, tok, bidder)

/-- 431-460 `query_bids_by_bidder`, index state.rs 214-218 -/
def queryBidsByBidder (s : State) (bidder : Addr) (start : Option (Addr × Nat)) (limit : Option Nat) : List Bid :=
  page bidPkLe (index s.bids (fun b => decide (b.bidder = bidder)) (fun k _ => k)) false (fun _ => true)
    (start.map (fun o => (o.1, o.2, bidder))) (querySize limit)

/-- bytes of a primary key of bids: (collection, token id, bidder) -/
def bidPkRaw (k : BidKey) : Bytes := comp k.1 ++ (comp (be 4 k.2.1) ++ k.2.2)

/-- 462-482 `query_bids`, index state.rs 204-208. The start is `Bound::ExclusiveRaw(bidder)`: the bytes of the bidder are
compared with the bytes of whole primary keys. -/
def queryBids (s : State) (c : Addr) (tok : Nat) (start : Option Addr) (limit : Option Nat) : List Bid :=
  page bLe (index s.bids (fun b => decide (b.collection = c ∧ b.tokenId = tok)) (fun k _ => bidPkRaw k)) false (fun _ => true)
    start (querySize limit)

/-- entries of the `collection_price` index of bids, state.rs 209-213 -/
def bidPrices (s : State) (c : Addr) : List ((Nat × BidKey) × Bid) :=
  index s.bids (fun b => decide (b.collection = c)) (fun k b => (b.price, k))

/-- 484-509 `query_bids_sorted_by_price`; offset: msg.rs 191 `BidOffset` (price, token, bidder) -/
def queryBidsSortedByPrice (s : State) (c : Addr) (start : Option (Nat × Nat × Addr)) (limit : Option Nat) : List Bid :=
  page (lexLe natLe bidPkLe) (bidPrices s c) false (fun _ => true) (start.map (fun o => (o.1, (c, o.2)))) (querySize limit)

/-- 511-536 `reverse_query_bids_sorted_by_price` -/
def reverseQueryBidsSortedByPrice (s : State) (c : Addr) (start : Option (Nat × Nat × Addr)) (limit : Option Nat) : List Bid :=
  page (lexLe natLe bidPkLe) (bidPrices s c) true (fun _ => true) (start.map (fun o => (o.1, (c, o.2)))) (querySize limit)

/-- 538-571 `query_bids_by_bidder_sorted_by_expiry`, index state.rs 219-223: the offset bid is looked up; if there is none,
the query starts from the beginning -/
def queryBidsByBidderSortedByExpiry (s : State) (bidder : Addr) (start : Option (Addr × Nat)) (limit : Option Nat) : List Bid :=
  page (lexLe natLe bidPkLe) (index s.bids (fun b => decide (b.bidder = bidder)) (fun k b => (seconds b.expiresAt, k))) false
    (fun _ => true)
    (start.bind (fun o => (queryBid s o.1 o.2 bidder).map (fun b => (seconds b.expiresAt, (o.1, o.2, bidder)))))
    (querySize limit)

/-- 573-581 `query_collection_bid` -/
def queryCollectionBid (s : State) (c bidder : Addr) : Option CBid := s.cbids.get? (c, bidder)

/-- entries of the `collection_price` index of collection bids, state.rs 280-284 -/
def cbidPrices (s : State) (c : Addr) : List ((Nat × CBidKey) × CBid) :=
  index s.cbids (fun b => decide (b.collection = c)) (fun k b => (b.price, k))

/-- msg.rs 224-230 `CollectionBidOffset` -/
structure CBidOffset where
  price : Nat
  collection : Addr
  bidder : Addr
  deriving DecidableEq, Repr

/-- 583-612 `query_collection_bids_sorted_by_price`; the collection of the offset is not used -/
def queryCBidsSortedByPrice (s : State) (c : Addr) (start : Option CBidOffset) (limit : Option Nat) : List CBid :=
  page (lexLe natLe cbidPkLe) (cbidPrices s c) false (fun _ => true) (start.map (fun o => (o.price, (c, o.bidder))))
    (querySize limit)

/-- 614-642 `reverse_query_collection_bids_sorted_by_price` -/
def reverseQueryCBidsSortedByPrice (s : State) (c : Addr) (start : Option CBidOffset) (limit : Option Nat) : List CBid :=
  page (lexLe natLe cbidPkLe) (cbidPrices s c) true (fun _ => true) (start.map (fun o => (o.price, (c, o.bidder))))
    (querySize limit)

/-- 644-668 `query_collection_bids_by_bidder`, index state.rs 285-289; the token of the offset is not used -/
def queryCBidsByBidder (s : State) (bidder : Addr) (start : Option (Addr × Nat)) (limit : Option Nat) : List CBid :=
  page cbidPkLe (index s.cbids (fun b => decide (b.bidder = bidder)) (fun k _ => k)) false (fun _ => true)
    (start.map (fun o => (o.1, bidder))) (querySize limit)

/-- 670-706 `query_collection_bids_by_bidder_sorted_by_expiry`, index state.rs 290-294; the price of the offset is not used -/
def queryCBidsByBidderSortedByExpiry (s : State) (bidder : Addr) (start : Option CBidOffset) (limit : Option Nat) : List CBid :=
  page (lexLe natLe cbidPkLe) (index s.cbids (fun b => decide (b.bidder = bidder)) (fun k b => (seconds b.expiresAt, k))) false
    (fun _ => true)
    (start.bind (fun o =>
      (queryCollectionBid s o.collection o.bidder).map (fun b => (seconds b.expiresAt, (o.collection, o.bidder)))))
    (querySize limit)

/-- 708-712 `query_params` -/
def queryParams (s : State) : SudoParams := s.params

end Verif.V1

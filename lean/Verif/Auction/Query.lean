/-
contracts/reserve-auction/src/query.rs: the queries of the reserve auction. Line numbers refer to query.rs unless another file
is named.

The entry point, which validates addresses, is in Entry.lean. Simplifications: an index iterates in the structural order of its keys
(C85 shows that this is the byte order of the encoded primary keys). `unpack_query_options` belongs to sg-marketplace-common
1.1.0, which is not in /repo; it is taken to be: page size `querySize`, `start_after` is an exclusive lower bound for
ascending and an exclusive upper bound for descending queries.
-/
import Verif.Auction.Model
import Verif.Base.KeyEnc
import Verif.Base.Listing

namespace Verif.Auction
open Verif

/-- order of primary keys: state.rs 102 `AuctionKey` -/
def keyLe : Key → Key → Bool := lexLe lenLe bLe

/-- 48-51 `query_config` -/
def queryConfig (s : State) : Config := s.config

/-- 53-56 `query_halt_manager` -/
def queryHaltManager (s : State) : Nat × List HaltWindow := (s.prevBlock, s.windows)

/-- 58-77 `query_min_reserve_prices` -/
def queryMinReservePrices (s : State) (desc : Bool) (start : Option Denom) (limit : Option Nat) : List Coin :=
  page bLe (s.minReserve.l.map (fun e => (e.1, (⟨e.1, e.2⟩ : Coin)))) desc (fun _ => true) start (querySize limit)

/-- 79-87 `query_auction` -/
def queryAuction (s : State) (coll : Addr) (tok : Bytes) : Option Auction := s.auctions.get? (coll, tok)

/-- 89-113 `query_auctions_by_seller`, index state.rs 112 -/
def queryAuctionsBySeller (s : State) (seller : Addr) (desc : Bool) (start : Option Key) (limit : Option Nat) : List Auction :=
  page keyLe (index s.auctions (fun a => decide (a.seller = seller)) (fun k _ => k)) desc (fun _ => true) start (querySize limit)

/-- entries of the `end_time` index, state.rs 113-117 -/
def endIndex (s : State) : List ((Nat × Key) × Auction) := index s.auctions (fun _ => true) (fun k a => (a.endKey, k))

/-- 115-152 `query_auctions_by_end_time`: there is always a start bound; the upper bound of an ascending query leaves out
auctions without end time -/
def queryAuctionsByEndTime (s : State) (endTime : Nat) (desc : Bool) (start : Option Key) (limit : Option Nat) : List Auction :=
  let b : QBound (Nat × Key) := .excl (endTime, start.getD ([], []))
  let es := if desc then scan (lexLe natLe keyLe) (endIndex s) true none (some b)
    else scan (lexLe natLe keyLe) (endIndex s) false (some b) (some (.excl (U64MAX, ([], []))))
  (es.take (querySize limit)).map Prod.snd

end Verif.Auction

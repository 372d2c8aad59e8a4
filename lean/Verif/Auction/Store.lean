/-
contracts/reserve-auction/src/state.rs: where the records and index entries of the contract lie in its key-value store, the
writes made by the handlers, and the queries of query.rs as reads of that store. Line numbers refer to state.rs unless another
file is named.

Simplification: a cell holds the stored value instead of its JSON text, tagged with its type.
-/
import Verif.Base.Kv
import Verif.Auction.Query

namespace Verif.Auction
open Verif Kv

/-- Contents of a cell. -/
inductive Cell where
  | config (c : Config)
  | halt (prevBlock : Nat) (windows : List HaltWindow)
  | amount (n : Nat)
  | auction (a : Auction)
  | len (n : Nat)
  | version (name version : Bytes)
  deriving DecidableEq, Repr

abbrev Raw := AMap Bytes Cell

def Cell.unlen : Cell → Option Nat
  | .len n => some n
  | _ => none

/-- 56 `CONFIG`, 134 `HALT_MANAGER`; cw2 `CONTRACT` -/
def configKey : Bytes := str "cfg"
def haltKey : Bytes := str "hm"
def versionKey : Bytes := str "contract_info"

/-- 60 `MIN_RESERVE_PRICES` -/
def minTable : Table Denom Nat Cell where
  ns := str "mrp"
  pk k := [k]
  idx := []
  enc := .amount
  dec c := match c with | .amount n => some n | _ => none
  len := .len
  unlen := Cell.unlen

/-- 112 `seller` -/
def sellerIx : Index Auction where
  key a := [a.seller]
  pkNs := str "a"
  ns := str "a__s"

/-- 113-117 `end_time` -/
def endIx : Index Auction where
  key a := [be 8 a.endKey]
  pkNs := str "a"
  ns := str "a__et"

/-- 110-120 `auctions` -/
def auctionTable : Table Key Auction Cell where
  ns := str "a"
  pk k := [k.1, k.2]
  idx := [sellerIx, endIx]
  enc := .auction
  dec c := match c with | .auction a => some a | _ => none
  len := .len
  unlen := Cell.unlen

/-- Writes made by the handlers: 27 `CONFIG.save`, sudo.rs 74, 120 `HALT_MANAGER.save`, 221, 245 `MIN_RESERVE_PRICES.save` and
`remove`, execute.rs 159, 210, 243, 348, helpers.rs 67, 82 `save` and `remove` of auctions, migrate.rs 13. -/
inductive Write where
  | config (c : Config)
  | halt (prevBlock : Nat) (windows : List HaltWindow)
  | min (d : Denom) (n : Nat)
  | rmMin (d : Denom)
  | auction (a : Auction)
  | rmAuction (k : Key)
  | version (name version : Bytes)

/-- The write on the typed state. -/
def Write.app (s : State) : Write → State
  | .config c => { s with config := c }
  | .halt n ws => { s with prevBlock := n, windows := ws }
  | .min d n => { s with minReserve := s.minReserve.insert d n }
  | .rmMin d => { s with minReserve := s.minReserve.erase d }
  | .auction a => { s with auctions := s.auctions.insert a.key a }
  | .rmAuction k => { s with auctions := s.auctions.erase k }
  | .version _ _ => s

/-- The write on the key-value store. -/
def Write.raw (r : Raw) : Write → Option Raw
  | .config c => some (r.insert configKey (.config c))
  | .halt n ws => some (r.insert haltKey (.halt n ws))
  | .min d n => minTable.save r d n
  | .rmMin d => minTable.remove r d
  | .auction a => auctionTable.save r a.key a
  | .rmAuction k => auctionTable.remove r k
  | .version n v => some (r.insert versionKey (.version n v))

/-- Writes one after the other. -/
def rawAll : List Write → Raw → Option Raw
  | [], r => some r
  | w :: ws, r => (w.raw r).bind (rawAll ws)

/-- instantiate.rs 23-96: version, config, minimum reserve prices and halt manager -/
def rawInit (name version : Bytes) (c : Config) (mins : List Coin) : Option Raw :=
  rawAll ([.version name version, .config c] ++ mins.map (fun x => .min x.denom x.amount) ++ [.halt 0 []]) .empty

/-! ### Reads -/

/-- query.rs 48-51 -/
def rawConfig (r : Raw) : Option Config :=
  match r.get? configKey with
  | some (.config c) => some c
  | _ => none

/-- query.rs 53-56 -/
def rawHalt (r : Raw) : Option (Nat × List HaltWindow) :=
  match r.get? haltKey with
  | some (.halt n ws) => some (n, ws)
  | _ => none

/-- bytes of a primary key as the rest of an index key -/
def keyBytes (k : Key) : Bytes := join [k.1, k.2]

/-- bytes of the rest of a key of the `end_time` index -/
def endBytes (k : Nat × Key) : Bytes := join [be 8 k.1, k.2.1, k.2.2]

/-- query.rs 58-77 `query_min_reserve_prices` -/
def rawMinReservePrices (r : Raw) (desc : Bool) (start : Option Denom) (limit : Option Nat) : Option (List Coin) :=
  (minTable.entries r desc (if desc then none else start.map .excl) (if desc then start.map .excl else none)
    (querySize limit)).map (List.map (fun e => ⟨e.1, e.2⟩))

/-- query.rs 89-113 `query_auctions_by_seller` -/
def rawAuctionsBySeller (r : Raw) (seller : Addr) (desc : Bool) (start : Option Key) (limit : Option Nat) : Option (List Auction) :=
  let b := start.map (fun k => QBound.excl (keyBytes k))
  auctionTable.list sellerIx r [seller] desc (if desc then none else b) (if desc then b else none) (querySize limit)

/-- query.rs 115-152 `query_auctions_by_end_time` -/
def rawAuctionsByEndTime (r : Raw) (endTime : Nat) (desc : Bool) (start : Option Key) (limit : Option Nat) : Option (List Auction) :=
  let b := QBound.excl (endBytes (endTime, start.getD ([], [])))
  auctionTable.list endIx r [] desc (if desc then none else some b)
    (some (if desc then b else .excl (endBytes (U64MAX, ([], []))))) (querySize limit)

/-- sudo.rs 86-99: the auctions picked by the end-block hook -/
def rawDue (ctx : Ctx) (c : Config) (r : Raw) : Option (List Auction) :=
  auctionTable.list endIx r [] false none (some (.excl (endBytes (secs ctx.time + 1, ([], []))))) (c.maxSettle % 2^32)

end Verif.Auction

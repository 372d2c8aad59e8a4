/-
contracts/marketplace/src/state.rs: where the records and index entries of marketplace v1 lie in its key-value store, the
writes made by the handlers, and the queries of query.rs as reads of that store. Line numbers refer to state.rs unless another
file is named.

Simplification: a cell holds the stored value instead of its JSON text, tagged with its type. sg_controllers `Hooks` is taken
as `Item<Vec<Addr>>`: a missing cell reads as the empty list.
-/
import Verif.Base.Kv
import Verif.V1.Query

namespace Verif.V1
open Verif Kv

/-- Contents of a cell. -/
inductive Cell where
  | params (c : SudoParams)
  | hooks (l : List Addr)
  | ask (a : Ask)
  | bid (b : Bid)
  | cbid (b : CBid)
  | len (n : Nat)
  | version (name version : Bytes)
  deriving DecidableEq, Repr

abbrev Raw := AMap Bytes Cell

def Cell.unlen : Cell → Option Nat
  | .len n => some n
  | _ => none

/-- 35 `SUDO_PARAMS`; cw2 `CONTRACT` -/
def paramsKey : Bytes := str "sudo-params"
def versionKey : Bytes := str "contract_info"

/-- 37-40: lists of hooks -/
inductive HookList | ask | bid | sale | cbid
  deriving DecidableEq, Repr

def HookList.key : HookList → Bytes
  | .ask => str "ask-hooks"
  | .bid => str "bid-hooks"
  | .sale => str "sale-hooks"
  | .cbid => str "collection-bid-hooks"

/-- the list on the typed state -/
def HookList.get (s : State) : HookList → List Addr
  | .ask => s.askHooks
  | .bid => s.bidHooks
  | .sale => s.saleHooks
  | .cbid => s.cbidHooks

def HookList.set (s : State) (l : List Addr) : HookList → State
  | .ask => { s with askHooks := l }
  | .bid => { s with bidHooks := l }
  | .sale => { s with saleHooks := l }
  | .cbid => { s with cbidHooks := l }

/-- 111-115 `collection` -/
def askCollIx : Index Ask where
  key a := [a.collection]
  pkNs := str "asks"
  ns := str "asks__collection"

/-- 116-120 `collection_price` -/
def askPriceIx : Index Ask where
  key a := [a.collection, be 16 a.price]
  pkNs := str "asks"
  ns := str "asks__collection_price"

/-- 121-125 `seller` -/
def askSellerIx : Index Ask where
  key a := [a.seller]
  pkNs := str "asks"
  ns := str "asks__seller"

/-- 109-128 `asks` -/
def askTable : Table AskKey Ask Cell where
  ns := str "asks"
  pk k := [k.1, be 4 k.2]
  idx := [askCollIx, askPriceIx, askSellerIx]
  enc := .ask
  dec c := match c with | .ask a => some a | _ => none
  len := .len
  unlen := Cell.unlen

/-- 199-203 `collection` -/
def bidCollIx : Index Bid where
  key b := [b.collection]
  pkNs := str "bids"
  ns := str "bids__collection"

/-- 204-208 `collection_token_id` -/
def bidTokenIx : Index Bid where
  key b := [b.collection, be 4 b.tokenId]
  pkNs := str "bids"
  ns := str "bids__collection_token_id"

/-- 209-213 `collection_price` -/
def bidPriceIx : Index Bid where
  key b := [b.collection, be 16 b.price]
  pkNs := str "bids"
  ns := str "bids__collection_price"

/-- 214-218 `bidder` -/
def bidBidderIx : Index Bid where
  key b := [b.bidder]
  pkNs := str "bids"
  ns := str "bids__bidder"

/-- 219-223 `bidder_expires_at` -/
def bidExpiryIx : Index Bid where
  key b := [b.bidder, be 8 (seconds b.expiresAt)]
  pkNs := str "bids"
  ns := str "bids__bidder_expires_at"

/-- 197-226 `bids` -/
def bidTable : Table BidKey Bid Cell where
  ns := str "bids"
  pk k := [k.1, be 4 k.2.1, k.2.2]
  idx := [bidCollIx, bidTokenIx, bidPriceIx, bidBidderIx, bidExpiryIx]
  enc := .bid
  dec c := match c with | .bid b => some b | _ => none
  len := .len
  unlen := Cell.unlen

/-- 275-279 `collection` -/
def cbidCollIx : Index CBid where
  key b := [b.collection]
  pkNs := str "col_bids"
  ns := str "col_bids__collection"

/-- 280-284 `collection_price` -/
def cbidPriceIx : Index CBid where
  key b := [b.collection, be 16 b.price]
  pkNs := str "col_bids"
  ns := str "col_bids__collection_price"

/-- 285-289 `bidder` -/
def cbidBidderIx : Index CBid where
  key b := [b.bidder]
  pkNs := str "col_bids"
  ns := str "col_bids__bidder"

/-- 290-294 `bidder_expires_at` -/
def cbidExpiryIx : Index CBid where
  key b := [b.bidder, be 8 (seconds b.expiresAt)]
  pkNs := str "col_bids"
  ns := str "col_bids__bidder_expires_at"

/-- 272-297 `collection_bids` -/
def cbidTable : Table CBidKey CBid Cell where
  ns := str "col_bids"
  pk k := [k.1, k.2]
  idx := [cbidCollIx, cbidPriceIx, cbidBidderIx, cbidExpiryIx]
  enc := .cbid
  dec c := match c with | .cbid b => some b | _ => none
  len := .len
  unlen := Cell.unlen

/-- Writes made by the handlers: `SUDO_PARAMS.save` (execute.rs 78, sudo.rs 133, 145, 159), hooks (execute.rs 81, sudo.rs
167-212), `save` and `remove` of asks (execute.rs 424, 459, 572, 691, 882, 952, 1007, 1286), bids (521, 647, 709, 747, 1044,
1278) and collection bids (797, 812, 838, 879, 1095), cw2 version (46, 1485). -/
inductive Write where
  | params (c : SudoParams)
  | hooks (h : HookList) (l : List Addr)
  | ask (k : AskKey) (a : Ask)
  | rmAsk (k : AskKey)
  | bid (k : BidKey) (b : Bid)
  | rmBid (k : BidKey)
  | cbid (k : CBidKey) (b : CBid)
  | rmCBid (k : CBidKey)
  | version (name version : Bytes)

/-- The write on the typed state. -/
def Write.app (s : State) : Write → State
  | .params c => { s with params := c }
  | .hooks h l => h.set s l
  | .ask k a => { s with asks := s.asks.insert k a }
  | .rmAsk k => { s with asks := s.asks.erase k }
  | .bid k b => { s with bids := s.bids.insert k b }
  | .rmBid k => { s with bids := s.bids.erase k }
  | .cbid k b => { s with cbids := s.cbids.insert k b }
  | .rmCBid k => { s with cbids := s.cbids.erase k }
  | .version _ _ => s

/-- The write on the key-value store. -/
def Write.raw (r : Raw) : Write → Option Raw
  | .params c => some (r.insert paramsKey (.params c))
  | .hooks h l => some (r.insert h.key (.hooks l))
  | .ask k a => askTable.save r k a
  | .rmAsk k => askTable.remove r k
  | .bid k b => bidTable.save r k b
  | .rmBid k => bidTable.remove r k
  | .cbid k b => cbidTable.save r k b
  | .rmCBid k => cbidTable.remove r k
  | .version n v => some (r.insert versionKey (.version n v))

/-- Writes one after the other. -/
def rawAll : List Write → Raw → Option Raw
  | [], r => some r
  | w :: ws, r => (w.raw r).bind (rawAll ws)

/-- execute.rs 40-85: version, parameters, and a sale hook if one is given -/
def rawInit (name version : Bytes) (c : SudoParams) (saleHook : Option Addr) : Option Raw :=
  rawAll ([.version name version, .params c] ++ (saleHook.map (fun h => Write.hooks .sale [h])).toList) .empty

/-! ### Reads -/

/-- query.rs 708-712 -/
def kvParams (r : Raw) : Option SudoParams :=
  match r.get? paramsKey with
  | some (.params c) => some c
  | _ => none

/-- sg_controllers hooks.rs `query_hooks`: `may_load`, `unwrap_or_default` -/
def kvHooks (r : Raw) (h : HookList) : List Addr :=
  match r.get? h.key with
  | some (.hooks l) => l
  | _ => []

/-- bytes of primary keys -/
def askBytes (k : AskKey) : Bytes := join [k.1, be 4 k.2]
def bidBytes (k : BidKey) : Bytes := join [k.1, be 4 k.2.1, k.2.2]
def cbidBytes (k : CBidKey) : Bytes := join [k.1, k.2]

/-- bytes of a primary key after a price, `u128` -/
def priced {K : Type} (f : K → Bytes) (j : Nat × K) : Bytes := comp (be 16 j.1) ++ f j.2
/-- bytes of a primary key after a second, `u64` -/
def timed {K : Type} (f : K → Bytes) (j : Nat × K) : Bytes := comp (be 8 j.1) ++ f j.2

/-- `range(start, None, Ascending)` or `range(None, end, Descending)`, with exclusive bound -/
def pageOf {K V : Type} (t : Table K V Cell) (ix : Index V) (r : Raw) (pre : List Bytes) (desc : Bool) (keep : V → Bool)
    (start : Option Bytes) (n : Nat) : Option (List V) :=
  t.listBy ix r pre desc (if desc then none else start.map .excl) (if desc then start.map .excl else none) keep n

/-- big-endian value -/
def unbe (b : Bytes) : Nat := b.foldl (fun n x => 256 * n + x.toNat) 0

/-- cw-storage-plus de.rs `KeyDeserialize for (T, U)`: first part -/
def firstComp (b : Bytes) : Bytes := (b.drop 2).take (unbe (b.take 2))

/-- query.rs 210-230 `query_collections`: map.rs `prefix_range` with `PrefixBound::exclusive` starts at the incremented prefix,
bound.rs, prefix.rs `calc_prefix_start_bound` -/
def kvCollections (r : Raw) (start : Option Addr) (limit : Option Nat) : Option (List Addr) :=
  ((range r (pfx [askTable.ns]) false (start.map (fun c => .incl (incLast (comp c)))) none).take (querySize limit)).mapM
    (fun e => (askTable.dec e.2).map (fun _ => firstComp e.1))

/-- query.rs 232-266, 268-302 -/
def kvAsks (r : Raw) (c : Addr) (incl : Option Bool) (desc : Bool) (start limit : Option Nat) : Option (List Ask) :=
  pageOf askTable askCollIx r [c] desc (showAsk incl) (some (askBytes (c, start.getD 0))) (querySize limit)

/-- query.rs 304-334, 336-366 -/
def kvAsksByPrice (r : Raw) (c : Addr) (incl : Option Bool) (desc : Bool) (start : Option (Nat × Nat)) (limit : Option Nat) :
    Option (List Ask) :=
  pageOf askTable askPriceIx r [c] desc (showAsk incl) (start.map (fun o => priced askBytes (o.1, (c, o.2)))) (querySize limit)

/-- query.rs 368-377 -/
def kvAskCount (r : Raw) (c : Addr) : Nat := (range r (pfx [askCollIx.ns, c]) false none none).length % 2 ^ 32

/-- query.rs 379-412 -/
def kvAsksBySeller (r : Raw) (seller : Addr) (incl : Option Bool) (start : Option (Addr × Nat)) (limit : Option Nat) :
    Option (List Ask) :=
  pageOf askTable askSellerIx r [seller] false (showAsk incl) (start.map askBytes) (querySize limit)

/-- query.rs 431-460 -/
def kvBidsByBidder (r : Raw) (bidder : Addr) (start : Option (Addr × Nat)) (limit : Option Nat) : Option (List Bid) :=
  pageOf bidTable bidBidderIx r [bidder] false (fun _ => true) (start.map (fun o => bidBytes (o.1, o.2, bidder))) (querySize limit)

/-- query.rs 462-482 -/
def kvBids (r : Raw) (c : Addr) (tok : Nat) (start : Option Addr) (limit : Option Nat) : Option (List Bid) :=
  pageOf bidTable bidTokenIx r [c, be 4 tok] false (fun _ => true) start (querySize limit)

/-- query.rs 484-509, 511-536 -/
def kvBidsByPrice (r : Raw) (c : Addr) (desc : Bool) (start : Option (Nat × Nat × Addr)) (limit : Option Nat) : Option (List Bid) :=
  pageOf bidTable bidPriceIx r [c] desc (fun _ => true) (start.map (fun o => priced bidBytes (o.1, (c, o.2)))) (querySize limit)

/-- query.rs 538-571 -/
def kvBidsByExpiry (r : Raw) (bidder : Addr) (start : Option (Addr × Nat)) (limit : Option Nat) : Option (List Bid) :=
  pageOf bidTable bidExpiryIx r [bidder] false (fun _ => true)
    (start.bind (fun o => (bidTable.load r (o.1, o.2, bidder)).map (fun b =>
      timed bidBytes (seconds b.expiresAt, (o.1, o.2, bidder))))) (querySize limit)

/-- query.rs 583-612, 614-642 -/
def kvCBidsByPrice (r : Raw) (c : Addr) (desc : Bool) (start : Option CBidOffset) (limit : Option Nat) : Option (List CBid) :=
  pageOf cbidTable cbidPriceIx r [c] desc (fun _ => true) (start.map (fun o => priced cbidBytes (o.price, (c, o.bidder))))
    (querySize limit)

/-- query.rs 644-668 -/
def kvCBidsByBidder (r : Raw) (bidder : Addr) (start : Option (Addr × Nat)) (limit : Option Nat) : Option (List CBid) :=
  pageOf cbidTable cbidBidderIx r [bidder] false (fun _ => true) (start.map (fun o => cbidBytes (o.1, bidder))) (querySize limit)

/-- query.rs 670-706 -/
def kvCBidsByExpiry (r : Raw) (bidder : Addr) (start : Option CBidOffset) (limit : Option Nat) : Option (List CBid) :=
  pageOf cbidTable cbidExpiryIx r [bidder] false (fun _ => true)
    (start.bind (fun o => (cbidTable.load r (o.collection, o.bidder)).map (fun b =>
      timed cbidBytes (seconds b.expiresAt, (o.collection, o.bidder))))) (querySize limit)

end Verif.V1

/-
contracts/stargaze-marketplace-v2/src/state.rs: where the records and index entries of the contract lie in its key-value store,
the writes made by the handlers, and the queries of query.rs as reads of that store. Line numbers refer to state.rs unless
another file is named.

Simplification: a cell holds the stored value instead of its JSON text, tagged with its type. `bound(..)` of `sg_index_query`
turns an offset into the bytes of the rest of the index key.
-/
import Verif.Base.Kv
import Verif.V2.Query

namespace Verif.V2
open Verif Kv

/-- Contents of a cell. -/
inductive Cell where
  | config (c : Config)
  | denom (d : Denom)
  | amount (n : Nat)
  | nonce (n : Nat)
  | ask (a : Ask)
  | bid (b : Bid)
  | cbid (b : CBid)
  | len (n : Nat)
  | version (name version : Bytes)
  deriving DecidableEq, Repr

abbrev Raw := AMap Bytes Cell

def Cell.unlen : Cell → Option Nat
  | .len n => some n
  | _ => none

/-- 65 `CONFIG`, 71 `NONCE`; cw2 `CONTRACT` -/
def configKey : Bytes := str "C"
def nonceKey : Bytes := str "N"
def versionKey : Bytes := str "contract_info"

/-- 67 `COLLECTION_DENOMS` -/
def denomTable : Table Addr Denom Cell where
  ns := str "D"
  pk k := [k]
  idx := []
  enc := .denom
  dec c := match c with | .denom d => some d | _ => none
  len := .len
  unlen := Cell.unlen

/-- 69 `LISTING_FEES` -/
def feeTable : Table Denom Nat Cell where
  ns := str "L"
  pk k := [k]
  idx := []
  enc := .amount
  dec c := match c with | .amount n => some n | _ => none
  len := .len
  unlen := Cell.unlen

/-- 90-100 `collection_denom_price` -/
def askPriceIx : Index Ask where
  key a := [a.collection, a.details.price.denom, be 16 a.details.price.amount]
  pkNs := str "a"
  ns := str "a_p"

/-- 101-105 `creator_collection` -/
def askOwnIx : Index Ask where
  key a := [a.creator, a.collection]
  pkNs := str "a"
  ns := str "a_c"

/-- 88-108 `asks` -/
def askTable : Table Bytes Ask Cell where
  ns := str "a"
  pk k := [k]
  idx := [askPriceIx, askOwnIx]
  enc := .ask
  dec c := match c with | .ask a => some a | _ => none
  len := .len
  unlen := Cell.unlen

/-- 127-137 `token_denom_price` -/
def bidPriceIx : Index Bid where
  key b := [indexStr b.collection b.tokenId, b.details.price.denom, be 16 b.details.price.amount]
  pkNs := str "o"
  ns := str "o_p"

/-- 138-142 `creator_collection` -/
def bidOwnIx : Index Bid where
  key b := [b.creator, b.collection]
  pkNs := str "o"
  ns := str "o_c"

/-- 125-145 `bids` -/
def bidTable : Table Bytes Bid Cell where
  ns := str "o"
  pk k := [k]
  idx := [bidPriceIx, bidOwnIx]
  enc := .bid
  dec c := match c with | .bid a => some a | _ => none
  len := .len
  unlen := Cell.unlen

/-- 165-175 `collection_denom_price` -/
def cbidPriceIx : Index CBid where
  key b := [b.collection, b.details.price.denom, be 16 b.details.price.amount]
  pkNs := str "c"
  ns := str "c_p"

/-- 176-180 `creator_collection` -/
def cbidOwnIx : Index CBid where
  key b := [b.creator, b.collection]
  pkNs := str "c"
  ns := str "c_c"

/-- 163-183 `collection_bids` -/
def cbidTable : Table Bytes CBid Cell where
  ns := str "c"
  pk k := [k]
  idx := [cbidPriceIx, cbidOwnIx]
  enc := .cbid
  dec c := match c with | .cbid a => some a | _ => none
  len := .len
  unlen := Cell.unlen

/-- Writes made by the handlers: 60 `CONFIG.save`, execute.rs 180 `COLLECTION_DENOMS.save`, 202 `LISTING_FEES.save`, 224
`LISTING_FEES.remove`, 443 `NONCE.save`, orders.rs 69-77, 196-204, 283-291 `save` and `remove` of orders, migrate.rs 20. -/
inductive Write where
  | config (c : Config)
  | nonce (n : Nat)
  | denom (coll : Addr) (d : Denom)
  | fee (d : Denom) (n : Nat)
  | rmFee (d : Denom)
  | ask (a : Ask)
  | rmAsk (id : Bytes)
  | bid (b : Bid)
  | rmBid (id : Bytes)
  | cbid (b : CBid)
  | rmCBid (id : Bytes)
  | version (name version : Bytes)

/-- The write on the typed state. -/
def Write.app (s : State) : Write → State
  | .config c => { s with config := c }
  | .nonce n => { s with nonce := n }
  | .denom coll d => { s with collectionDenoms := s.collectionDenoms.insert coll d }
  | .fee d n => { s with listingFees := s.listingFees.insert d n }
  | .rmFee d => { s with listingFees := s.listingFees.erase d }
  | .ask a => { s with asks := s.asks.insert a.id a }
  | .rmAsk id => { s with asks := s.asks.erase id }
  | .bid b => { s with bids := s.bids.insert b.id b }
  | .rmBid id => { s with bids := s.bids.erase id }
  | .cbid b => { s with cbids := s.cbids.insert b.id b }
  | .rmCBid id => { s with cbids := s.cbids.erase id }
  | .version _ _ => s

/-- The write on the key-value store. -/
def Write.raw (r : Raw) : Write → Option Raw
  | .config c => some (r.insert configKey (.config c))
  | .nonce n => some (r.insert nonceKey (.nonce n))
  | .denom coll d => denomTable.save r coll d
  | .fee d n => feeTable.save r d n
  | .rmFee d => feeTable.remove r d
  | .ask a => askTable.save r a.id a
  | .rmAsk id => askTable.remove r id
  | .bid b => bidTable.save r b.id b
  | .rmBid id => bidTable.remove r id
  | .cbid b => cbidTable.save r b.id b
  | .rmCBid id => cbidTable.remove r id
  | .version n v => some (r.insert versionKey (.version n v))

/-- Writes one after the other. -/
def rawAll : List Write → Raw → Option Raw
  | [], r => some r
  | w :: ws, r => (w.raw r).bind (rawAll ws)

/-- instantiate.rs 22-28: version, config and nonce -/
def rawInit (name version : Bytes) (c : Config) : Option Raw :=
  rawAll [.version name version, .config c, .nonce 0] .empty

/-! ### Reads -/

/-- query.rs 97-99 -/
def rawConfig (r : Raw) : Option Config :=
  match r.get? configKey with
  | some (.config c) => some c
  | _ => none

/-- execute.rs 442: `NONCE.load` -/
def rawNonce (r : Raw) : Option Nat :=
  match r.get? nonceKey with
  | some (.nonce n) => some n
  | _ => none

/-- bytes of a price offset: the amount as u128, then the id -/
def priceKey (k : Nat × Bytes) : Bytes := join [be 16 k.1, k.2]

section
variable (p : Params)

/-- query.rs 118-141 -/
def rawAsksByCollectionDenom (r : Raw) (coll : Addr) (den : Denom) (o : QOpts (Nat × Bytes)) : Option (List Ask) :=
  askTable.list askPriceIx r [coll, den] (o.descending.getD false) (o.min.map (QBound.map priceKey))
    (o.max.map (QBound.map priceKey)) (Nat.min (o.limit.getD p.defLimit) p.maxLimit)

/-- query.rs 143-166 -/
def rawAsksByCreatorCollection (r : Raw) (creator coll : Addr) (o : QOpts Bytes) : Option (List Ask) :=
  askTable.list askOwnIx r [creator, coll] (o.descending.getD false) o.min o.max (Nat.min (o.limit.getD p.defLimit) p.maxLimit)

/-- query.rs 181-208 -/
def rawBidsByTokenPrice (r : Raw) (coll : Addr) (tok : Bytes) (den : Denom) (o : QOpts (Nat × Bytes)) : Option (List Bid) :=
  bidTable.list bidPriceIx r [indexStr coll tok, den] (o.descending.getD false) (o.min.map (QBound.map priceKey))
    (o.max.map (QBound.map priceKey)) (Nat.min (o.limit.getD p.defLimit) p.maxLimit)

/-- query.rs 210-233 -/
def rawBidsByCreatorCollection (r : Raw) (creator coll : Addr) (o : QOpts Bytes) : Option (List Bid) :=
  bidTable.list bidOwnIx r [creator, coll] (o.descending.getD false) o.min o.max (Nat.min (o.limit.getD p.defLimit) p.maxLimit)

/-- query.rs 248-271 -/
def rawCollectionBidsByPrice (r : Raw) (coll : Addr) (den : Denom) (o : QOpts (Nat × Bytes)) : Option (List CBid) :=
  cbidTable.list cbidPriceIx r [coll, den] (o.descending.getD false) (o.min.map (QBound.map priceKey))
    (o.max.map (QBound.map priceKey)) (Nat.min (o.limit.getD p.defLimit) p.maxLimit)

/-- query.rs 273-296 -/
def rawCollectionBidsByCreatorCollection (r : Raw) (creator coll : Addr) (o : QOpts Bytes) : Option (List CBid) :=
  cbidTable.list cbidOwnIx r [creator, coll] (o.descending.getD false) o.min o.max (Nat.min (o.limit.getD p.defLimit) p.maxLimit)

end
end Verif.V2

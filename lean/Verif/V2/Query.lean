/-
contracts/stargaze-marketplace-v2/src/query.rs: the queries not needed by the matching code (which are in Model.lean).
`sg_index_query` limits are parameters, see DESIGN.md.
-/
import Verif.V2.Model

namespace Verif.V2
open Verif

section
variable (p : Params)

/-- query.rs 97-99 `query_config` -/
def queryConfig (s : State) : Config := s.config

/-- query.rs 101-103 `query_collection_denom` -/
def queryCollectionDenom (s : State) (collection : Addr) : Option Denom := s.collectionDenoms.get? collection

/-- query.rs 105-116 `query_asks`; `QueryMsg::Ask(id)` is `query_asks(vec![id])?.pop()` (line 24) -/
def queryAsks (s : State) (ids : List Bytes) : List Ask := ids.filterMap s.asks.get?

/-- query.rs 168-179 `query_bids` -/
def queryBids (s : State) (ids : List Bytes) : List Bid := ids.filterMap s.bids.get?

/-- query.rs 235-246 `query_collection_bids` -/
def queryCollectionBids (s : State) (ids : List Bytes) : List CBid := ids.filterMap s.cbids.get?

/-- query.rs 24, 46, 71: `.pop()` of the one-element query -/
def queryAsk (s : State) (id : Bytes) : Option Ask := (queryAsks s [id]).getLast?
def queryBid (s : State) (id : Bytes) : Option Bid := (queryBids s [id]).getLast?
def queryCollectionBid (s : State) (id : Bytes) : Option CBid := (queryCollectionBids s [id]).getLast?

/-- Entries of the index `creator_collection` under prefix (creator, collection): state.rs 101-105, keyed by id. -/
def askOwnEntries (s : State) (creator collection : Addr) : List (Bytes × Ask) :=
  s.asks.l.filter (fun e => decide (e.2.creator = creator ∧ e.2.collection = collection))

/-- state.rs 138-142 -/
def bidOwnEntries (s : State) (creator collection : Addr) : List (Bytes × Bid) :=
  s.bids.l.filter (fun e => decide (e.2.creator = creator ∧ e.2.collection = collection))

/-- state.rs 176-180 -/
def cbidOwnEntries (s : State) (creator collection : Addr) : List (Bytes × CBid) :=
  s.cbids.l.filter (fun e => decide (e.2.creator = creator ∧ e.2.collection = collection))

/-- query.rs 143-166 `query_asks_by_creator_collection` -/
def queryAsksByCreatorCollection (s : State) (creator collection : Addr) (o : QOpts Bytes) : List Ask :=
  runQuery bLe p.defLimit p.maxLimit (askOwnEntries s creator collection) o

/-- query.rs 210-233 `query_bids_by_creator_collection` -/
def queryBidsByCreatorCollection (s : State) (creator collection : Addr) (o : QOpts Bytes) : List Bid :=
  runQuery bLe p.defLimit p.maxLimit (bidOwnEntries s creator collection) o

/-- query.rs 273-296 `query_collection_bids_by_creator_collection` -/
def queryCollectionBidsByCreatorCollection (s : State) (creator collection : Addr) (o : QOpts Bytes) : List CBid :=
  runQuery bLe p.defLimit p.maxLimit (cbidOwnEntries s creator collection) o

end
end Verif.V2

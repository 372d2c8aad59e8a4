/-
contracts/marketplace/src/query.rs 21-208: the entry point `query` with the validation of addresses. The queries themselves are in
Query.lean.
-/
import Verif.V1.Query

namespace Verif.V1
open Verif

/-- msg.rs 242-386 `QueryMsg`; offsets: 177-230 -/
inductive QueryMsg where
  | collections (start : Option Bytes) (limit : Option Nat)
  | ask (collection : Bytes) (tok : Nat)
  | asks (collection : Bytes) (incl : Option Bool) (start limit : Option Nat)
  | reverseAsks (collection : Bytes) (incl : Option Bool) (start limit : Option Nat)
  | asksSortedByPrice (collection : Bytes) (incl : Option Bool) (start : Option (Nat × Nat)) (limit : Option Nat)
  | reverseAsksSortedByPrice (collection : Bytes) (incl : Option Bool) (start : Option (Nat × Nat)) (limit : Option Nat)
  | askCount (collection : Bytes)
  | asksBySeller (seller : Bytes) (incl : Option Bool) (start : Option (Bytes × Nat)) (limit : Option Nat)
  | bid (collection : Bytes) (tok : Nat) (bidder : Bytes)
  | bidsByBidder (bidder : Bytes) (start : Option (Bytes × Nat)) (limit : Option Nat)
  | bidsByBidderSortedByExpiration (bidder : Bytes) (start : Option (Bytes × Nat)) (limit : Option Nat)
  | bids (collection : Bytes) (tok : Nat) (start : Option Bytes) (limit : Option Nat)
  | bidsSortedByPrice (collection : Bytes) (start : Option (Nat × Nat × Bytes)) (limit : Option Nat)
  | reverseBidsSortedByPrice (collection : Bytes) (start : Option (Nat × Nat × Bytes)) (limit : Option Nat)
  | collectionBid (collection bidder : Bytes)
  | collectionBidsByBidder (bidder : Bytes) (start : Option (Bytes × Nat)) (limit : Option Nat)
  | collectionBidsByBidderSortedByExpiration (bidder : Bytes) (start : Option CBidOffset) (limit : Option Nat)
  | collectionBidsSortedByPrice (collection : Bytes) (start : Option CBidOffset) (limit : Option Nat)
  | reverseCollectionBidsSortedByPrice (collection : Bytes) (start : Option CBidOffset) (limit : Option Nat)
  | askHooks
  | bidHooks
  | saleHooks
  | params
  deriving DecidableEq, Repr

/-- The responses, msg.rs 388-432. -/
inductive Answer where
  | collections (l : List Addr)
  | ask (a : Option Ask)
  | asks (l : List Ask)
  | count (n : Nat)
  | bid (b : Option Bid)
  | bids (l : List Bid)
  | cbid (b : Option CBid)
  | cbids (l : List CBid)
  | hooks (l : List Addr)
  | params (c : SudoParams)

section
variable (p : Params)

/-- validation of an optional offset: `maybe_addr` (216), and the `match` on the offset in each query (389, 440, 548, 593, ...) -/
def offset {O : Type} (addrs : O → List Bytes) (o : Option O) : Res Unit :=
  match o with
  | none => .ok ()
  | some x => (addrs x).foldlM (fun _ a => addrValidate p a >>= fun _ => .ok ()) ()

/-- query.rs 22-208 `query` -/
def query (s : State) : QueryMsg → Res Answer
  | .collections start limit => offset p (fun a => [a]) start >>= fun _ => .ok (.collections (queryCollections s start limit))
  | .ask c t => addrValidate p c >>= fun c => .ok (.ask (queryAsk s c t))
  | .asks c i st l => addrValidate p c >>= fun c => .ok (.asks (queryAsks s c i st l))
  | .reverseAsks c i st l => addrValidate p c >>= fun c => .ok (.asks (reverseQueryAsks s c i st l))
  | .asksSortedByPrice c i st l => addrValidate p c >>= fun c => .ok (.asks (queryAsksSortedByPrice s c i st l))
  | .reverseAsksSortedByPrice c i st l => addrValidate p c >>= fun c => .ok (.asks (reverseQueryAsksSortedByPrice s c i st l))
  | .askCount c => addrValidate p c >>= fun c => .ok (.count (queryAskCount s c))
  | .asksBySeller x i st l =>
    addrValidate p x >>= fun x => offset p (fun o => [o.1]) st >>= fun _ => .ok (.asks (queryAsksBySeller s x i st l))
  | .bid c t b => addrValidate p c >>= fun c => addrValidate p b >>= fun b => .ok (.bid (queryBid s c t b))
  | .bids c t st l => addrValidate p c >>= fun c => .ok (.bids (queryBids s c t st l))
  | .bidsByBidder b st l =>
    addrValidate p b >>= fun b => offset p (fun o => [o.1]) st >>= fun _ => .ok (.bids (queryBidsByBidder s b st l))
  | .bidsSortedByPrice c st l => addrValidate p c >>= fun c => .ok (.bids (queryBidsSortedByPrice s c st l))
  | .reverseBidsSortedByPrice c st l => addrValidate p c >>= fun c => .ok (.bids (reverseQueryBidsSortedByPrice s c st l))
  | .bidsByBidderSortedByExpiration b st l =>
    addrValidate p b >>= fun b => offset p (fun o => [o.1]) st >>= fun _ => .ok (.bids (queryBidsByBidderSortedByExpiry s b st l))
  | .collectionBid c b => addrValidate p c >>= fun c => addrValidate p b >>= fun b => .ok (.cbid (queryCollectionBid s c b))
  | .collectionBidsSortedByPrice c st l =>
    addrValidate p c >>= fun c => offset p (fun o => [o.bidder]) st >>= fun _ => .ok (.cbids (queryCBidsSortedByPrice s c st l))
  | .reverseCollectionBidsSortedByPrice c st l =>
    addrValidate p c >>= fun c => offset p (fun o => [o.bidder]) st >>= fun _ => .ok (.cbids (reverseQueryCBidsSortedByPrice s c st l))
  | .collectionBidsByBidder b st l =>
    addrValidate p b >>= fun b => offset p (fun o => [o.1]) st >>= fun _ => .ok (.cbids (queryCBidsByBidder s b st l))
  | .collectionBidsByBidderSortedByExpiration b st l =>
    addrValidate p b >>= fun b => offset p (fun o => [o.bidder, o.collection]) st >>= fun _ =>
    .ok (.cbids (queryCBidsByBidderSortedByExpiry s b st l))
  | .askHooks => .ok (.hooks s.askHooks)
  | .bidHooks => .ok (.hooks s.bidHooks)
  | .saleHooks => .ok (.hooks s.saleHooks)
  | .params => .ok (.params (queryParams s))

end
end Verif.V1

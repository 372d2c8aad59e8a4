/-
contracts/stargaze-marketplace-v2/src/query.rs 11-95: the entry point `query` with the validation of addresses. The queries themselves
are in Query.lean and Model.lean.
-/
import Verif.V2.Query

namespace Verif.V2
open Verif

/-- msg.rs 97-153 `QueryMsg`; `PriceOffset` (155-159) is the pair of amount and id. -/
inductive QueryMsg where
  | config
  | collectionDenom (collection : Bytes)
  | ask (id : Bytes)
  | asks (ids : List Bytes)
  | asksByCollectionDenom (collection : Bytes) (denom : Denom) (o : Option (QOpts (Nat × Bytes)))
  | asksByCreatorCollection (creator collection : Bytes) (o : Option (QOpts Bytes))
  | bid (id : Bytes)
  | bids (ids : List Bytes)
  | bidsByTokenPrice (collection tokenId : Bytes) (denom : Denom) (o : Option (QOpts (Nat × Bytes)))
  | bidsByCreatorCollection (creator collection : Bytes) (o : Option (QOpts Bytes))
  | collectionBid (id : Bytes)
  | collectionBids (ids : List Bytes)
  | collectionBidsByPrice (collection : Bytes) (denom : Denom) (o : Option (QOpts (Nat × Bytes)))
  | collectionBidsByCreatorCollection (creator collection : Bytes) (o : Option (QOpts Bytes))

/-- The responses, `#[returns(..)]` in msg.rs 100-152. -/
inductive Answer where
  | config (c : Config)
  | denom (d : Option Denom)
  | ask (a : Option Ask)
  | asks (l : List Ask)
  | bid (b : Option Bid)
  | bids (l : List Bid)
  | cbid (b : Option CBid)
  | cbids (l : List CBid)

section
variable (p : Params)

/-- query.rs 14-95 `query` -/
def query (s : State) : QueryMsg → Res Answer
  | .config => .ok (.config (queryConfig s))
  | .collectionDenom c => addrValidate p c >>= fun c => .ok (.denom (queryCollectionDenom s c))
  | .ask id => .ok (.ask (queryAsk s id))
  | .asks ids => .ok (.asks (queryAsks s ids))
  | .asksByCollectionDenom c d o => addrValidate p c >>= fun c => .ok (.asks (queryAsksByCollectionDenom p s c d (o.getD {})))
  | .asksByCreatorCollection x c o =>
    addrValidate p x >>= fun x => addrValidate p c >>= fun c => .ok (.asks (queryAsksByCreatorCollection p s x c (o.getD {})))
  | .bid id => .ok (.bid (queryBid s id))
  | .bids ids => .ok (.bids (queryBids s ids))
  | .bidsByTokenPrice c t d o => addrValidate p c >>= fun c => .ok (.bids (queryBidsByTokenPrice p s c t d (o.getD {})))
  | .bidsByCreatorCollection x c o =>
    addrValidate p x >>= fun x => addrValidate p c >>= fun c => .ok (.bids (queryBidsByCreatorCollection p s x c (o.getD {})))
  | .collectionBid id => .ok (.cbid (queryCollectionBid s id))
  | .collectionBids ids => .ok (.cbids (queryCollectionBids s ids))
  | .collectionBidsByPrice c d o => addrValidate p c >>= fun c => .ok (.cbids (queryCollectionBidsByPrice p s c d (o.getD {})))
  | .collectionBidsByCreatorCollection x c o =>
    addrValidate p x >>= fun x => addrValidate p c >>= fun c => .ok (.cbids (queryCollectionBidsByCreatorCollection p s x c (o.getD {})))

end
end Verif.V2

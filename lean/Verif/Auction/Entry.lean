/-
contracts/reserve-auction/src/query.rs 16-46: the entry point `query` with the validation of addresses. The queries themselves are in
Query.lean.
-/
import Verif.Auction.Query

namespace Verif.Auction
open Verif

/-- sg-marketplace-common 1.1.0 `QueryOptions` -/
structure Opts (O : Type) where
  descending : Option Bool := none
  startAfter : Option O := none
  limit : Option Nat := none

/-- msg.rs 83-110 `QueryMsg`; `AuctionKeyOffset` is a key, `MinReservePriceOffset` a denom -/
inductive QueryMsg where
  | config
  | haltManager
  | minReservePrices (o : Option (Opts Denom))
  | auction (collection tokenId : Bytes)
  | auctionsBySeller (seller : Bytes) (o : Option (Opts Key))
  | auctionsByEndTime (endTime : Nat) (o : Option (Opts Key))

/-- The responses, `#[returns(..)]` in msg.rs 86-105. -/
inductive Answer where
  | config (c : Config)
  | halt (h : Nat × List HaltWindow)
  | coins (l : List Coin)
  | auction (a : Option Auction)
  | auctions (l : List Auction)

section
variable (p : Params)

/-- query.rs 17-46 `query`, with the `addr_validate` of 83 and 93. Collections in offsets are `Addr::unchecked` (97, 126). -/
def query (s : State) : QueryMsg → Res Answer
  | .config => .ok (.config (queryConfig s))
  | .haltManager => .ok (.halt (queryHaltManager s))
  | .minReservePrices o =>
    let o := o.getD {}
    .ok (.coins (queryMinReservePrices s (o.descending.getD false) o.startAfter o.limit))
  | .auction c t => addrValidate p c >>= fun c => .ok (.auction (queryAuction s c t))
  | .auctionsBySeller x o =>
    let o := o.getD {}
    addrValidate p x >>= fun _ => .ok (.auctions (queryAuctionsBySeller s x (o.descending.getD false) o.startAfter o.limit))
  | .auctionsByEndTime e o =>
    let o := o.getD {}
    .ok (.auctions (queryAuctionsByEndTime s e (o.descending.getD false) o.startAfter o.limit))

end
end Verif.Auction

/-
contracts/stargaze-marketplace-v2/src — the entry points again, this time with the events of the response
(events.rs, `get_event_attrs` of orders.rs, and where execute.rs / helpers.rs / instantiate.rs add events).
Line numbers refer to files in that directory. `Verif.V2.EventLemmas` proves that leaving the events out gives
back the functions of `Verif.V2.Model`.
-/
import Verif.V2.Model
import Verif.Base.Event

namespace Verif.V2
open Verif

/-- Result of a handler: state, messages, events. -/
abbrev OutE := Res (State × List Msg × List Event)

/-! ### events.rs -/

/-- events.rs 9-29 `ConfigEvent` -/
def configEvent (ty : String) (c : Config) : Event :=
  ⟨ty, [("fee_manager", c.feeManager), ("royalty_registry", c.royaltyRegistry),
    ("protocol_fee_bps", showNat c.protocolFeeBps), ("max_royalty_fee_bps", showNat c.maxRoyaltyFeeBps),
    ("maker_reward_bps", showNat c.makerRewardBps), ("taker_reward_bps", showNat c.takerRewardBps),
    ("default_denom", c.defaultDenom)]⟩

/-- events.rs 31-44 `CollectionDenomEvent` -/
def collectionDenomEvent (ty : String) (collection : Addr) (denom : Denom) : Event :=
  ⟨ty, [("collection", collection), ("denom", denom)]⟩

/-- events.rs 46-61 `ListingFeeEvent` -/
def listingFeeEvent (ty : String) (denom : Denom) (amount : Option Nat) : Event :=
  ⟨ty, ("denom", denom) :: optAttr "fee" (amount.map showNat)⟩

/-- orders.rs 133-149: one attribute of an ask; an unknown key is `unreachable!`. -/
def Ask.eventAttr (a : Ask) (k : String) : Res (List Attr) :=
  if k = "id" then .ok [("id", a.id)]
  else if k = "creator" then .ok [("creator", a.creator)]
  else if k = "collection" then .ok [("collection", a.collection)]
  else if k = "token_id" then .ok [("token_id", a.tokenId)]
  else if k = "price" then .ok [("price", showCoin a.details.price)]
  else if k = "recipient" then .ok (optAttr "recipient" a.details.recipient)
  else if k = "finder" then .ok (optAttr "finder" a.details.finder)
  else .error .panic

/-- orders.rs 223-240: one attribute of a bid -/
def Bid.eventAttr (a : Bid) (k : String) : Res (List Attr) :=
  if k = "id" then .ok [("id", a.id)]
  else if k = "creator" then .ok [("creator", a.creator)]
  else if k = "collection" then .ok [("collection", a.collection)]
  else if k = "token_id" then .ok [("token_id", a.tokenId)]
  else if k = "price" then .ok [("price", showCoin a.details.price)]
  else if k = "recipient" then .ok (optAttr "recipient" a.details.recipient)
  else if k = "finder" then .ok (optAttr "finder" a.details.finder)
  else .error .panic

/-- orders.rs 316-332: one attribute of a collection bid (there is no `token_id`) -/
def CBid.eventAttr (a : CBid) (k : String) : Res (List Attr) :=
  if k = "id" then .ok [("id", a.id)]
  else if k = "creator" then .ok [("creator", a.creator)]
  else if k = "collection" then .ok [("collection", a.collection)]
  else if k = "price" then .ok [("price", showCoin a.details.price)]
  else if k = "recipient" then .ok (optAttr "recipient" a.details.recipient)
  else if k = "finder" then .ok (optAttr "finder" a.details.finder)
  else .error .panic

/-- orders.rs 129-157, 220-248, 313-340 `get_event_attrs`: the loop over the keys. -/
def eventAttrs (f : String → Res (List Attr)) : List String → Res (List Attr)
  | [] => .ok []
  | k :: ks => f k >>= fun a => eventAttrs f ks >>= fun as => .ok (a ++ as)

/-- events.rs 63-73 `AskEvent` -/
def askEvent (ty : String) (a : Ask) (keys : List String) : Res Event :=
  eventAttrs a.eventAttr keys >>= fun as => .ok ⟨ty, as⟩
/-- events.rs 75-85 `BidEvent` -/
def bidEvent (ty : String) (a : Bid) (keys : List String) : Res Event :=
  eventAttrs a.eventAttr keys >>= fun as => .ok ⟨ty, as⟩
/-- events.rs 87-98 `CollectionBidEvent` -/
def cbidEvent (ty : String) (a : CBid) (keys : List String) : Res Event :=
  eventAttrs a.eventAttr keys >>= fun as => .ok ⟨ty, as⟩

/-! ### helpers.rs -/

/-- helpers.rs 142-181, sale.rs 67: the labels given to `add_fee` and to the seller's payment -/
def labelStr : Label → String
  | .protocol => "protocol"
  | .maker => "maker"
  | .taker => "taker"
  | .royalty => "royalty"
  | .seller => "seller"

/-- helpers.rs 209-216: the order of the buyer's side -/
def matchAttr : MatchingBid → Attr
  | .bid b => ("bid", b.id)
  | .cbid b => ("collection_bid", b.id)

/-- helpers.rs 200-220: the event of a sale -/
def saleEvent (ask : Ask) (mb : MatchingBid) (price : Coin) (payments : List Payment) : Event :=
  ⟨"finalize-sale",
    [("collection", ask.collection), ("token_id", ask.tokenId), ("denom", price.denom),
      ("price", showNat price.amount), ("seller_recipient", ask.assetRecipient), ("nft_recipient", mb.recipient),
      ("ask", ask.id), matchAttr mb] ++
    payments.map (fun x => (labelStr x.label, showNat x.funds.amount))⟩

section
variable (p : Params)

/-- helpers.rs 114-225 `finalize_sale` -/
def finalizeSaleE (ctx : Ctx) (s : State) (ask : Ask) (c : Config) (mb : MatchingBid) (askBeforeBid : Bool)
    (resp : List Msg) : OutE :=
  let (price, maker, taker) := saleTerms ask mb askBeforeBid
  divideProtocolFees c maker.isSome taker.isSome >>= fun pf =>
  fetchOrSetRoyalties ctx p.valid c.royaltyRegistry ask.collection >>= fun roy =>
  saleFees c pf maker taker roy.1 >>= fun fees =>
  buildPayments price ask.assetRecipient fees >>= fun payments =>
  .ok (removeMatching { s with asks := s.asks.erase ask.id } mb,
    resp ++ roy.2 ++ payoutMsgs payments ++ [transferNft ask.collection ask.tokenId mb.recipient],
    [saleEvent ask mb price payments])

/-! ### execute.rs -/

/-- execute.rs 151-169 -/
def executeUpdateConfigE (ctx : Ctx) (sender : Addr) (c : Config) (s : State) : OutE :=
  onlyContractAdmin ctx sender >>= fun _ =>
  c.validate >>= fun _ => .ok ({ s with config := c }, [], [configEvent "set-config" c])

/-- execute.rs 171-192 -/
def executeUpdateCollectionDenomE (ctx : Ctx) (sender : Addr) (collection : Addr) (denom : Denom) (s : State) : OutE :=
  onlyContractAdmin ctx sender >>= fun _ =>
  .ok ({ s with collectionDenoms := s.collectionDenoms.insert collection denom }, [],
    [collectionDenomEvent "set-collection-denom" collection denom])

/-- execute.rs 194-214 -/
def executeSetListingFeeE (ctx : Ctx) (sender : Addr) (fee : Coin) (s : State) : OutE :=
  onlyContractAdmin ctx sender >>= fun _ =>
  .ok ({ s with listingFees := s.listingFees.insert fee.denom fee.amount }, [],
    [listingFeeEvent "set-listing-fee" fee.denom (some fee.amount)])

/-- execute.rs 216-236 -/
def executeRemoveListingFeeE (ctx : Ctx) (sender : Addr) (denom : Denom) (s : State) : OutE :=
  onlyContractAdmin ctx sender >>= fun _ =>
  .ok ({ s with listingFees := s.listingFees.erase denom }, [],
    [listingFeeEvent "remove-listing-fee" denom none])

/-- execute.rs 238-318 -/
def executeSetAskE (ctx : Ctx) (sender : Addr) (funds : List Coin) (collection : Addr) (tokenId : Bytes)
    (details : Details) (sellNow : Bool) (s : State) : OutE :=
  onlyOwner ctx sender collection tokenId >>= fun _ =>
  onlyTradable ctx collection >>= fun _ =>
  onlyValidPrice s s.config collection details.price >>= fun _ =>
  oneCoin funds >>= fun payment =>
  orErr (s.listingFees.get? payment.denom) .invalidInput >>= fun fee =>
  ensure (payment.amount = fee) .invalidInput >>= fun _ =>
  let resp := [transferCoin payment s.config.feeManager]
  let ask := Ask.new p sender collection tokenId details
  match ask.matchWithBid p s with
  | some mb => finalizeSaleE p ctx s ask s.config mb false resp
  | none =>
    if sellNow then .error .noMatch
    else
      askEvent "set-ask" ask ["id", "creator", "collection", "token_id", "price", "recipient", "finder"] >>= fun ev =>
      ensure (s.asks.get? ask.id = none) .internal >>= fun _ =>
      .ok ({ s with asks := s.asks.insert ask.id ask },
        resp ++ [transferNft ask.collection ask.tokenId ctx.self], [ev])

/-- execute.rs 320-376 -/
def executeUpdateAskE (ctx : Ctx) (sender : Addr) (funds : List Coin) (id : Bytes) (details : Details)
    (s : State) : OutE :=
  nonpayable funds >>= fun _ =>
  orErr (s.asks.get? id) .notFound >>= fun ask0 =>
  ensure (sender = ask0.creator) .unauthorized >>= fun _ =>
  onlyValidPrice s s.config ask0.collection details.price >>= fun _ =>
  let ask := { ask0 with details := details }
  match ask.matchWithBid p s with
  | some mb => finalizeSaleE p ctx s ask s.config mb false []
  | none =>
    askEvent "update-ask" ask ["id", "collection", "token_id", "price", "recipient", "finder"] >>= fun ev =>
    .ok ({ s with asks := s.asks.insert ask.id ask }, [], [ev])

/-- execute.rs 378-417 -/
def executeRemoveAskE (sender : Addr) (funds : List Coin) (id : Bytes) (s : State) : OutE :=
  nonpayable funds >>= fun _ =>
  orErr (s.asks.get? id) .notFound >>= fun ask =>
  ensure (sender = ask.creator) .unauthorized >>= fun _ =>
  askEvent "remove-ask" ask ["id", "collection", "token_id"] >>= fun ev =>
  .ok ({ s with asks := s.asks.erase ask.id }, [transferNft ask.collection ask.tokenId ask.assetRecipient], [ev])

/-- execute.rs 419-471 -/
def executeAcceptAskE (ctx : Ctx) (sender : Addr) (funds : List Coin) (id : Bytes) (details : Details)
    (s : State) : OutE :=
  nbNormalize funds >>= fun funds =>
  orErr (s.asks.get? id) .notFound >>= fun ask =>
  ensure (hasCoins [details.price] ask.details.price = true) .invalidInput >>= fun _ =>
  takePrice funds ask.details.price >>= fun left =>
  let nonce := nextNonce s
  let s := { s with nonce := nonce }
  let bid := Bid.new p sender ask.collection ask.tokenId details ctx.height nonce
  finalizeSaleE p ctx s ask s.config (.bid bid) true [] >>= fun r =>
  .ok (r.1, refund sender left r.2.1, r.2.2)

/-- execute.rs 473-563 -/
def executeSetBidE (ctx : Ctx) (sender : Addr) (funds : List Coin) (collection : Addr) (tokenId : Bytes)
    (details : Details) (buyNow : Bool) (s : State) : OutE :=
  onlyTradable ctx collection >>= fun _ =>
  onlyValidPrice s s.config collection details.price >>= fun _ =>
  nbNormalize funds >>= fun funds =>
  let nonce := nextNonce s
  let s := { s with nonce := nonce }
  let bid := Bid.new p sender collection tokenId details ctx.height nonce
  match bid.matchWithAsk p s with
  | some ask =>
    takePrice funds ask.details.price >>= fun left =>
    finalizeSaleE p ctx s ask s.config (.bid bid) true [] >>= fun r =>
    .ok (r.1, refund sender left r.2.1, r.2.2)
  | none =>
    if buyNow then .error .noMatch
    else
      takePrice funds bid.details.price >>= fun left =>
      bidEvent "set-bid" bid ["id", "creator", "collection", "token_id", "price", "recipient", "finder"] >>= fun ev =>
      ensure (s.bids.get? bid.id = none) .internal >>= fun _ =>
      .ok ({ s with bids := s.bids.insert bid.id bid }, refund sender left [], [ev])

/-- execute.rs 565-648 -/
def executeUpdateBidE (ctx : Ctx) (sender : Addr) (funds : List Coin) (id : Bytes) (details : Details)
    (s : State) : OutE :=
  orErr (s.bids.get? id) .notFound >>= fun bid0 =>
  ensure (sender = bid0.creator) .unauthorized >>= fun _ =>
  onlyValidPrice s s.config bid0.collection details.price >>= fun _ =>
  nbNormalize funds >>= fun funds =>
  nbAdd funds bid0.details.price >>= fun funds =>
  let bid := { bid0 with details := details }
  match bid.matchWithAsk p s with
  | some ask =>
    takePrice funds ask.details.price >>= fun left =>
    finalizeSaleE p ctx s ask s.config (.bid bid) true [] >>= fun r =>
    .ok (r.1, refund sender left r.2.1, r.2.2)
  | none =>
    takePrice funds bid.details.price >>= fun left =>
    bidEvent "update-bid" bid ["id", "collection", "token_id", "price", "creator", "recipient", "finder"] >>= fun ev =>
    .ok ({ s with bids := s.bids.insert bid.id bid }, refund sender left [], [ev])

/-- execute.rs 650-686 -/
def executeRemoveBidE (sender : Addr) (funds : List Coin) (id : Bytes) (s : State) : OutE :=
  nonpayable funds >>= fun _ =>
  orErr (s.bids.get? id) .notFound >>= fun bid =>
  ensure (sender = bid.creator) .unauthorized >>= fun _ =>
  bidEvent "remove-bid" bid ["id", "collection", "token_id"] >>= fun ev =>
  .ok ({ s with bids := s.bids.erase bid.id }, [transferCoin bid.details.price sender], [ev])

/-- execute.rs 688-737 -/
def executeAcceptBidE (ctx : Ctx) (sender : Addr) (id : Bytes) (details : Details) (s : State) : OutE :=
  orErr (s.bids.get? id) .notFound >>= fun bid =>
  ensure (hasCoins [bid.details.price] details.price = true) .invalidInput >>= fun _ =>
  acceptorAsk p ctx sender bid.collection bid.tokenId details s >>= fun ask =>
  finalizeSaleE p ctx s ask s.config (.bid bid) false []

/-- execute.rs 739-829 -/
def executeSetCollectionBidE (ctx : Ctx) (sender : Addr) (funds : List Coin) (collection : Addr)
    (details : Details) (buyNow : Bool) (s : State) : OutE :=
  onlyTradable ctx collection >>= fun _ =>
  onlyValidPrice s s.config collection details.price >>= fun _ =>
  nbNormalize funds >>= fun funds =>
  let nonce := nextNonce s
  let s := { s with nonce := nonce }
  let cbid := CBid.new p sender collection details ctx.height nonce
  cbid.matchWithAsk p s >>= fun m =>
  match m with
  | some ask =>
    takePrice funds ask.details.price >>= fun left =>
    finalizeSaleE p ctx s ask s.config (.cbid cbid) true [] >>= fun r =>
    .ok (r.1, refund sender left r.2.1, r.2.2)
  | none =>
    if buyNow then .error .noMatch
    else
      takePrice funds cbid.details.price >>= fun left =>
      cbidEvent "set-collection-bid" cbid ["id", "creator", "collection", "price", "recipient", "finder"] >>= fun ev =>
      ensure (s.cbids.get? cbid.id = none) .internal >>= fun _ =>
      .ok ({ s with cbids := s.cbids.insert cbid.id cbid }, refund sender left [], [ev])

/-- execute.rs 831-918 -/
def executeUpdateCollectionBidE (ctx : Ctx) (sender : Addr) (funds : List Coin) (id : Bytes)
    (details : Details) (s : State) : OutE :=
  orErr (s.cbids.get? id) .notFound >>= fun cbid0 =>
  ensure (sender = cbid0.creator) .unauthorized >>= fun _ =>
  onlyValidPrice s s.config cbid0.collection details.price >>= fun _ =>
  nbNormalize funds >>= fun funds =>
  nbAdd funds cbid0.details.price >>= fun funds =>
  let cbid := { cbid0 with details := details }
  cbid.matchWithAsk p s >>= fun m =>
  match m with
  | some ask =>
    takePrice funds ask.details.price >>= fun left =>
    finalizeSaleE p ctx s ask s.config (.cbid cbid) true [] >>= fun r =>
    .ok (r.1, refund sender left r.2.1, r.2.2)
  | none =>
    takePrice funds cbid.details.price >>= fun left =>
    cbidEvent "update-collection-bid" cbid ["id", "collection", "price", "creator", "recipient", "finder"] >>= fun ev =>
    .ok ({ s with cbids := s.cbids.insert cbid.id cbid }, refund sender left [], [ev])

/-- execute.rs 920-956 -/
def executeRemoveCollectionBidE (sender : Addr) (funds : List Coin) (id : Bytes) (s : State) : OutE :=
  nonpayable funds >>= fun _ =>
  orErr (s.cbids.get? id) .notFound >>= fun cbid =>
  ensure (sender = cbid.creator) .unauthorized >>= fun _ =>
  cbidEvent "remove-collection-bid" cbid ["id", "collection"] >>= fun ev =>
  .ok ({ s with cbids := s.cbids.erase cbid.id }, [transferCoin cbid.details.price sender], [ev])

/-- execute.rs 958-1011 -/
def executeAcceptCollectionBidE (ctx : Ctx) (sender : Addr) (id : Bytes) (tokenId : Bytes)
    (details : Details) (s : State) : OutE :=
  orErr (s.cbids.get? id) .notFound >>= fun cbid =>
  ensure (hasCoins [cbid.details.price] details.price = true) .invalidInput >>= fun _ =>
  acceptorAsk p ctx sender cbid.collection tokenId details s >>= fun ask =>
  finalizeSaleE p ctx s ask s.config (.cbid cbid) false []

/-- execute.rs 28-149 `execute` -/
def executeE (ctx : Ctx) (sender : Addr) (funds : List Coin) (m : Exec) (s : State) : OutE :=
  match m with
  | .updateConfig c => c.strToAddr p >>= fun c => executeUpdateConfigE ctx sender c s
  | .updateCollectionDenom coll denom =>
    addrValidate p coll >>= fun coll => executeUpdateCollectionDenomE ctx sender coll denom s
  | .setListingFee fee => executeSetListingFeeE ctx sender fee s
  | .removeListingFee denom => executeRemoveListingFeeE ctx sender denom s
  | .setAsk coll tok d =>
    addrValidate p coll >>= fun coll => d.strToAddr p >>= fun d => executeSetAskE p ctx sender funds coll tok d false s
  | .updateAsk id d => d.strToAddr p >>= fun d => executeUpdateAskE p ctx sender funds id d s
  | .removeAsk id => executeRemoveAskE sender funds id s
  | .acceptAsk id d => d.strToAddr p >>= fun d => executeAcceptAskE p ctx sender funds id d s
  | .setBid coll tok d =>
    addrValidate p coll >>= fun coll => d.strToAddr p >>= fun d => executeSetBidE p ctx sender funds coll tok d false s
  | .updateBid id d => d.strToAddr p >>= fun d => executeUpdateBidE p ctx sender funds id d s
  | .removeBid id => executeRemoveBidE sender funds id s
  | .acceptBid id d => d.strToAddr p >>= fun d => executeAcceptBidE p ctx sender id d s
  | .setCollectionBid coll d =>
    addrValidate p coll >>= fun coll => d.strToAddr p >>= fun d =>
      executeSetCollectionBidE p ctx sender funds coll d false s
  | .updateCollectionBid id d => d.strToAddr p >>= fun d => executeUpdateCollectionBidE p ctx sender funds id d s
  | .removeCollectionBid id => executeRemoveCollectionBidE sender funds id s
  | .acceptCollectionBid id tok d => d.strToAddr p >>= fun d => executeAcceptCollectionBidE p ctx sender id tok d s
  | .sellNft coll tok d =>
    addrValidate p coll >>= fun coll => d.strToAddr p >>= fun d => executeSetAskE p ctx sender funds coll tok d true s
  | .buySpecificNft coll tok d =>
    addrValidate p coll >>= fun coll => d.strToAddr p >>= fun d => executeSetBidE p ctx sender funds coll tok d true s
  | .buyCollectionNft coll d =>
    addrValidate p coll >>= fun coll => d.strToAddr p >>= fun d =>
      executeSetCollectionBidE p ctx sender funds coll d true s

/-- instantiate.rs 16-45 `instantiate`; `name` and `version` are the constants of constants.rs. -/
def instantiateE (name version : Bytes) (c : Config) : Res (State × List Event) :=
  c.strToAddr p >>= fun c =>
  c.validate >>= fun _ =>
  .ok ({ config := c, collectionDenoms := .empty, listingFees := .empty, nonce := 0,
         asks := .empty, bids := .empty, cbids := .empty },
    [⟨"instantiate", [("contract_name", name), ("contract_version", version)]⟩, configEvent "set-config" c])

end
end Verif.V2

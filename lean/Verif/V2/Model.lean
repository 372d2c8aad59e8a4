/-
contracts/stargaze-marketplace-v2/src — the whole execute/instantiate logic and the price queries.
Line numbers refer to files in that directory.
-/
import Verif.Base.AMap
import Verif.Base.Range
import Verif.Common.Sale
import Verif.Common.Nft

namespace Verif.V2
open Verif

/-- Things outside the contract's code that are fixed for a deployment: the hash behind
`generate_id` (Blake2s256 hex digest), address validation, and sg-index-query's default/max limits. -/
structure Params where
  hash : Bytes → Bytes
  valid : Bytes → Bool
  defLimit : Nat
  maxLimit : Nat

/-- state.rs 15-31 `Config<Addr>` -/
structure Config where
  feeManager : Addr
  royaltyRegistry : Addr
  protocolFeeBps : Nat
  maxRoyaltyFeeBps : Nat
  makerRewardBps : Nat
  takerRewardBps : Nat
  defaultDenom : Denom
  deriving DecidableEq, Repr

/-- orders.rs 18-23 `OrderDetails` (same shape before and after address validation) -/
structure Details where
  price : Coin
  recipient : Option Addr
  finder : Option Addr
  deriving DecidableEq, Repr

/-- orders.rs 40-47 `Ask` -/
structure Ask where
  id : Bytes
  creator : Addr
  collection : Addr
  tokenId : Bytes
  details : Details
  deriving DecidableEq, Repr

/-- orders.rs 160-167 `Bid` -/
structure Bid where
  id : Bytes
  creator : Addr
  collection : Addr
  tokenId : Bytes
  details : Details
  deriving DecidableEq, Repr

/-- orders.rs 251-257 `CollectionBid` -/
structure CBid where
  id : Bytes
  creator : Addr
  collection : Addr
  details : Details
  deriving DecidableEq, Repr

/-- orders.rs 35-38 `MatchingBid` -/
inductive MatchingBid where
  | bid (b : Bid)
  | cbid (b : CBid)
  deriving DecidableEq, Repr

/-- Contract storage: state.rs 65-71, 88-108, 125-145, 163-183. -/
structure State where
  config : Config
  collectionDenoms : AMap Addr Denom
  listingFees : AMap Denom Nat
  nonce : Nat
  asks : AMap Bytes Ask
  bids : AMap Bytes Bid
  cbids : AMap Bytes CBid

/-- msg.rs 16-95 `ExecuteMsg` -/
inductive Exec where
  | updateConfig (c : Config)
  | updateCollectionDenom (collection : Bytes) (denom : Denom)
  | setListingFee (fee : Coin)
  | removeListingFee (denom : Denom)
  | setAsk (collection tokenId : Bytes) (details : Details)
  | removeAsk (id : Bytes)
  | updateAsk (id : Bytes) (details : Details)
  | acceptAsk (id : Bytes) (details : Details)
  | setBid (collection tokenId : Bytes) (details : Details)
  | removeBid (id : Bytes)
  | updateBid (id : Bytes) (details : Details)
  | acceptBid (id : Bytes) (details : Details)
  | setCollectionBid (collection : Bytes) (details : Details)
  | removeCollectionBid (id : Bytes)
  | updateCollectionBid (id : Bytes) (details : Details)
  | acceptCollectionBid (id : Bytes) (tokenId : Bytes) (details : Details)
  | sellNft (collection tokenId : Bytes) (details : Details)
  | buySpecificNft (collection tokenId : Bytes) (details : Details)
  | buyCollectionNft (collection : Bytes) (details : Details)
  deriving DecidableEq, Repr

/-- Result of a handler. -/
abbrev Out := Res (State × List Msg)

section
variable (p : Params)

/-- `api.addr_validate` -/
def addrValidate (a : Bytes) : Res Addr := if p.valid a then .ok a else .error .std

/-- `cw_utils::maybe_addr` -/
def maybeAddr (a : Option Bytes) : Res (Option Addr) :=
  match a with
  | none => .ok none
  | some x => addrValidate p x >>= fun y => .ok (some y)

/-- orders.rs 25-33 `OrderDetails::str_to_addr` -/
def Details.strToAddr (d : Details) : Res Details :=
  maybeAddr p d.recipient >>= fun r =>
  maybeAddr p d.finder >>= fun f =>
  .ok ⟨d.price, r, f⟩

/-- state.rs 33-45 `Config::str_to_addr` -/
def Config.strToAddr (c : Config) : Res Config :=
  addrValidate p c.feeManager >>= fun _ =>
  addrValidate p c.royaltyRegistry >>= fun _ => .ok c

/-- helpers.rs 18-21 `build_collection_token_index_str` ('/' is byte 47) -/
def indexStr (collection tokenId : Bytes) : Bytes := collection ++ 47 :: tokenId

/-- orders.rs 57 / 207 / execute.rs 704: id of the ask on a token (helpers.rs 23-29 `generate_id`) -/
def askId (collection tokenId : Bytes) : Bytes := p.hash (collection ++ tokenId)

/-- orders.rs 49-63 `Ask::new` -/
def Ask.new (creator collection : Addr) (tokenId : Bytes) (d : Details) : Ask :=
  ⟨askId p collection tokenId, creator, collection, tokenId, d⟩

/-- orders.rs 169-190 `Bid::new` -/
def Bid.new (creator collection : Addr) (tokenId : Bytes) (d : Details) (height nonce : Nat) : Bid :=
  ⟨p.hash (collection ++ tokenId ++ be8 height ++ be8 nonce), creator, collection, tokenId, d⟩

/-- orders.rs 260-277 `CollectionBid::new` -/
def CBid.new (creator collection : Addr) (d : Details) (height nonce : Nat) : CBid :=
  ⟨p.hash (collection ++ be8 height ++ be8 nonce), creator, collection, d⟩

/-- orders.rs 65-67 `Ask::asset_recipient` -/
def Ask.assetRecipient (a : Ask) : Addr := addressOr a.details.recipient a.creator
/-- orders.rs 192-194 -/
def Bid.assetRecipient (a : Bid) : Addr := addressOr a.details.recipient a.creator
/-- orders.rs 279-281 -/
def CBid.assetRecipient (a : CBid) : Addr := addressOr a.details.recipient a.creator

/-! ### Price-indexed queries (query.rs, state.rs indices) -/

/-- Entries of the ask index `collection_denom_price` under prefix (collection, denom):
state.rs 90-100, keyed by (amount, id). -/
def askEntries (s : State) (collection : Addr) (denom : Denom) : List ((Nat × Bytes) × Ask) :=
  (s.asks.l.filter (fun e => decide (e.2.collection = collection ∧ e.2.details.price.denom = denom))).map
    (fun e => ((e.2.details.price.amount, e.1), e.2))

/-- query.rs 118-141 `query_asks_by_collection_denom` -/
def queryAsksByCollectionDenom (s : State) (collection : Addr) (denom : Denom) (o : QOpts (Nat × Bytes)) :
    List Ask := runQuery pkLe p.defLimit p.maxLimit (askEntries s collection denom) o

/-- Entries of the bid index `token_denom_price` under prefix (collection/token, denom): state.rs 127-137. -/
def bidEntries (s : State) (collection : Addr) (tokenId : Bytes) (denom : Denom) :
    List ((Nat × Bytes) × Bid) :=
  (s.bids.l.filter (fun e => decide (indexStr e.2.collection e.2.tokenId = indexStr collection tokenId ∧
    e.2.details.price.denom = denom))).map (fun e => ((e.2.details.price.amount, e.1), e.2))

/-- query.rs 181-208 `query_bids_by_token_price` -/
def queryBidsByTokenPrice (s : State) (collection : Addr) (tokenId : Bytes) (denom : Denom)
    (o : QOpts (Nat × Bytes)) : List Bid :=
  runQuery pkLe p.defLimit p.maxLimit (bidEntries s collection tokenId denom) o

/-- Entries of the collection bid index `collection_denom_price`: state.rs 165-175. -/
def cbidEntries (s : State) (collection : Addr) (denom : Denom) : List ((Nat × Bytes) × CBid) :=
  (s.cbids.l.filter (fun e => decide (e.2.collection = collection ∧ e.2.details.price.denom = denom))).map
    (fun e => ((e.2.details.price.amount, e.1), e.2))

/-- query.rs 248-271 `query_collection_bids_by_price` -/
def queryCollectionBidsByPrice (s : State) (collection : Addr) (denom : Denom) (o : QOpts (Nat × Bytes)) :
    List CBid := runQuery pkLe p.defLimit p.maxLimit (cbidEntries s collection denom) o

/-! ### Matching (orders.rs) -/

/-- orders.rs 79-127 `Ask::match_with_bid` -/
def Ask.matchWithBid (s : State) (a : Ask) : Option MatchingBid :=
  let o : QOpts (Nat × Bytes) :=
    { descending := some true, limit := some 1, min := some (.incl (a.details.price.amount, [])), max := none }
  let topBid := (queryBidsByTokenPrice p s a.collection a.tokenId a.details.price.denom o).getLast?
  let topCBid := (queryCollectionBidsByPrice p s a.collection a.details.price.denom o).getLast?
  match topBid, topCBid with
  | some b, some c =>
    if c.details.price.amount ≤ b.details.price.amount then some (.bid b) else some (.cbid c)
  | some b, none => some (.bid b)
  | none, some c => some (.cbid c)
  | none, none => none

/-- orders.rs 206-218 `Bid::match_with_ask` -/
def Bid.matchWithAsk (s : State) (b : Bid) : Option Ask :=
  match s.asks.get? (askId p b.collection b.tokenId) with
  | some ask => if hasCoins [b.details.price] ask.details.price then some ask else none
  | none => none

/-- orders.rs 293-311 `CollectionBid::match_with_ask`; `amount + 1` overflows for `u128::MAX`. -/
def CBid.matchWithAsk (s : State) (b : CBid) : Res (Option Ask) :=
  u128 (b.details.price.amount + 1) >>= fun n =>
  .ok (queryAsksByCollectionDenom p s b.collection b.details.price.denom
    { descending := some false, limit := some 1, min := none, max := some (.excl (n, [])) }).getLast?

/-! ### Helpers (helpers.rs) -/

/-- helpers.rs 31-53 `only_contract_admin` -/
def onlyContractAdmin (ctx : Ctx) (sender : Addr) : Res Unit :=
  match ctx.q.admin with
  | none => .error .std
  | some none => .error .unauthorized
  | some (some a) => ensure (sender = a) .unauthorized

/-- helpers.rs 55-75 `only_valid_price` -/
def onlyValidPrice (s : State) (config : Config) (collection : Addr) (price : Coin) : Res Unit :=
  ensure (0 < price.amount) .invalidInput >>= fun _ =>
  ensure ((s.collectionDenoms.get? collection).getD config.defaultDenom = price.denom) .invalidInput

/-- helpers.rs 77-82 `ProtocolFees` -/
structure ProtocolFees where
  protocolFee : Nat
  makerReward : Nat
  takerReward : Nat
  deriving DecidableEq, Repr

/-- helpers.rs 84-112 `divide_protocol_fees` -/
def divideProtocolFees (c : Config) (makerExists takerExists : Bool) : Res ProtocolFees :=
  let fee := bps c.protocolFeeBps
  if fee = 0 then .ok ⟨fee, 0, 0⟩
  else
    (if makerExists && decide (0 < c.makerRewardBps) then
      decMul fee (bps c.makerRewardBps) >>= fun m => subChk fee m >>= fun left => .ok (m, left)
     else .ok (0, fee)) >>= fun (mk : Nat × Nat) =>
    (if takerExists && decide (0 < c.takerRewardBps) then
      decMul fee (bps c.takerRewardBps) >>= fun t => subChk mk.2 t >>= fun left => .ok (t, left)
     else .ok (0, mk.2)) >>= fun (tk : Nat × Nat) =>
    .ok ⟨tk.2, mk.1, tk.1⟩

/-- Recipient of the NFT and details of the bid side: helpers.rs 123-128. -/
def MatchingBid.recipient : MatchingBid → Addr
  | .bid b => b.assetRecipient
  | .cbid b => b.assetRecipient
def MatchingBid.details : MatchingBid → Details
  | .bid b => b.details
  | .cbid b => b.details

/-- helpers.rs 142-181: the list of fees passed to the sale processor.
The `unwrap`s of maker/taker panic if the reward is positive and the finder absent. -/
def saleFees (c : Config) (pf : ProtocolFees) (maker taker : Option Addr) (roy : Option Royalty) :
    Res (List Fee) :=
  (if 0 < pf.makerReward then orErr maker .panic >>= fun m => .ok [(⟨.maker, m, pf.makerReward⟩ : Fee)]
   else .ok []) >>= fun mk =>
  (if 0 < pf.takerReward then orErr taker .panic >>= fun t => .ok [(⟨.taker, t, pf.takerReward⟩ : Fee)]
   else .ok []) >>= fun tk =>
  .ok ((if 0 < pf.protocolFee then [(⟨.protocol, c.feeManager, pf.protocolFee⟩ : Fee)] else []) ++ mk ++ tk ++
    (match roy with
     | some r => [⟨.royalty, r.recipient, Nat.min r.share (bps c.maxRoyaltyFeeBps)⟩]
     | none => []))

/-- Removal of the bid side: helpers.rs 190-198 (orders.rs 201-204, 288-291). -/
def removeMatching (s : State) : MatchingBid → State
  | .bid b => { s with bids := s.bids.erase b.id }
  | .cbid b => { s with cbids := s.cbids.erase b.id }

/-- helpers.rs 130-134: sale price, maker and taker. -/
def saleTerms (ask : Ask) (mb : MatchingBid) (askBeforeBid : Bool) : Coin × Option Addr × Option Addr :=
  if askBeforeBid then (ask.details.price, ask.details.finder, mb.details.finder)
  else (mb.details.price, mb.details.finder, ask.details.finder)

/-- helpers.rs 114-225 `finalize_sale`; `resp` are the messages already in the response. -/
def finalizeSale (ctx : Ctx) (s : State) (ask : Ask) (c : Config) (mb : MatchingBid) (askBeforeBid : Bool)
    (resp : List Msg) : Out :=
  let (price, maker, taker) := saleTerms ask mb askBeforeBid
  divideProtocolFees c maker.isSome taker.isSome >>= fun pf =>
  fetchOrSetRoyalties ctx p.valid c.royaltyRegistry ask.collection >>= fun roy =>
  saleFees c pf maker taker roy.1 >>= fun fees =>
  buildPayments price ask.assetRecipient fees >>= fun payments =>
  .ok (removeMatching { s with asks := s.asks.erase ask.id } mb,
    resp ++ roy.2 ++ payoutMsgs payments ++ [transferNft ask.collection ask.tokenId mb.recipient])

/-! ### Handlers (execute.rs) -/

/-- state.rs 48-62 `Config::save` (`maker + taker` is a checked u64 addition) -/
def Config.validate (c : Config) : Res Unit :=
  ensure (c.protocolFeeBps < 10000) .invalidInput >>= fun _ =>
  u64 (c.makerRewardBps + c.takerRewardBps) >>= fun n =>
  ensure (n < 10000) .invalidInput

/-- execute.rs 151-169 -/
def executeUpdateConfig (ctx : Ctx) (sender : Addr) (c : Config) (s : State) : Out :=
  onlyContractAdmin ctx sender >>= fun _ =>
  c.validate >>= fun _ => .ok ({ s with config := c }, [])

/-- execute.rs 171-192 -/
def executeUpdateCollectionDenom (ctx : Ctx) (sender : Addr) (collection : Addr) (denom : Denom) (s : State) : Out :=
  onlyContractAdmin ctx sender >>= fun _ =>
  .ok ({ s with collectionDenoms := s.collectionDenoms.insert collection denom }, [])

/-- execute.rs 194-214 -/
def executeSetListingFee (ctx : Ctx) (sender : Addr) (fee : Coin) (s : State) : Out :=
  onlyContractAdmin ctx sender >>= fun _ =>
  .ok ({ s with listingFees := s.listingFees.insert fee.denom fee.amount }, [])

/-- execute.rs 216-236 -/
def executeRemoveListingFee (ctx : Ctx) (sender : Addr) (denom : Denom) (s : State) : Out :=
  onlyContractAdmin ctx sender >>= fun _ =>
  .ok ({ s with listingFees := s.listingFees.erase denom }, [])

/-- execute.rs 238-318 -/
def executeSetAsk (ctx : Ctx) (sender : Addr) (funds : List Coin) (collection : Addr) (tokenId : Bytes)
    (details : Details) (sellNow : Bool) (s : State) : Out :=
  onlyOwner ctx sender collection tokenId >>= fun _ =>
  onlyTradable ctx collection >>= fun _ =>
  onlyValidPrice s s.config collection details.price >>= fun _ =>
  oneCoin funds >>= fun payment =>
  orErr (s.listingFees.get? payment.denom) .invalidInput >>= fun fee =>
  ensure (payment.amount = fee) .invalidInput >>= fun _ =>
  let resp := [transferCoin payment s.config.feeManager]
  let ask := Ask.new p sender collection tokenId details
  match ask.matchWithBid p s with
  | some mb => finalizeSale p ctx s ask s.config mb false resp
  | none =>
    if sellNow then .error .noMatch
    else
      ensure (s.asks.get? ask.id = none) .internal >>= fun _ =>
      .ok ({ s with asks := s.asks.insert ask.id ask },
        resp ++ [transferNft ask.collection ask.tokenId ctx.self])

/-- execute.rs 320-376 -/
def executeUpdateAsk (ctx : Ctx) (sender : Addr) (funds : List Coin) (id : Bytes) (details : Details)
    (s : State) : Out :=
  nonpayable funds >>= fun _ =>
  orErr (s.asks.get? id) .notFound >>= fun ask0 =>
  ensure (sender = ask0.creator) .unauthorized >>= fun _ =>
  onlyValidPrice s s.config ask0.collection details.price >>= fun _ =>
  let ask := { ask0 with details := details }
  match ask.matchWithBid p s with
  | some mb => finalizeSale p ctx s ask s.config mb false []
  | none => .ok ({ s with asks := s.asks.insert ask.id ask }, [])

/-- execute.rs 378-417 -/
def executeRemoveAsk (sender : Addr) (funds : List Coin) (id : Bytes) (s : State) : Out :=
  nonpayable funds >>= fun _ =>
  orErr (s.asks.get? id) .notFound >>= fun ask =>
  ensure (sender = ask.creator) .unauthorized >>= fun _ =>
  .ok ({ s with asks := s.asks.erase ask.id }, [transferNft ask.collection ask.tokenId ask.assetRecipient])

/-- execute.rs 442-443, 490-491, 755-756: `NONCE.load()?.wrapping_add(1)` -/
def nextNonce (s : State) : Nat := (s.nonce + 1) % 2^64

/-- execute.rs 466-468 etc.: return what is left of the funds. -/
def refund (sender : Addr) (funds : List Coin) (resp : List Msg) : List Msg :=
  if nbIsEmpty funds then resp else resp ++ [transferCoins funds sender]

/-- `funds.sub(price).map_err(|_| InsufficientFunds)?` -/
def takePrice (funds : List Coin) (price : Coin) : Res (List Coin) :=
  match nbSub funds price with
  | .ok r => .ok r
  | .error _ => .error .insufficientFunds

/-- execute.rs 419-471 -/
def executeAcceptAsk (ctx : Ctx) (sender : Addr) (funds : List Coin) (id : Bytes) (details : Details)
    (s : State) : Out :=
  nbNormalize funds >>= fun funds =>
  orErr (s.asks.get? id) .notFound >>= fun ask =>
  ensure (hasCoins [details.price] ask.details.price = true) .invalidInput >>= fun _ =>
  takePrice funds ask.details.price >>= fun left =>
  let nonce := nextNonce s
  let s := { s with nonce := nonce }
  let bid := Bid.new p sender ask.collection ask.tokenId details ctx.height nonce
  finalizeSale p ctx s ask s.config (.bid bid) true [] >>= fun r =>
  .ok (r.1, refund sender left r.2)

/-- execute.rs 473-563 -/
def executeSetBid (ctx : Ctx) (sender : Addr) (funds : List Coin) (collection : Addr) (tokenId : Bytes)
    (details : Details) (buyNow : Bool) (s : State) : Out :=
  onlyTradable ctx collection >>= fun _ =>
  onlyValidPrice s s.config collection details.price >>= fun _ =>
  nbNormalize funds >>= fun funds =>
  let nonce := nextNonce s
  let s := { s with nonce := nonce }
  let bid := Bid.new p sender collection tokenId details ctx.height nonce
  match bid.matchWithAsk p s with
  | some ask =>
    takePrice funds ask.details.price >>= fun left =>
    finalizeSale p ctx s ask s.config (.bid bid) true [] >>= fun r =>
    .ok (r.1, refund sender left r.2)
  | none =>
    if buyNow then .error .noMatch
    else
      takePrice funds bid.details.price >>= fun left =>
      ensure (s.bids.get? bid.id = none) .internal >>= fun _ =>
      .ok ({ s with bids := s.bids.insert bid.id bid }, refund sender left [])

/-- execute.rs 565-648 -/
def executeUpdateBid (ctx : Ctx) (sender : Addr) (funds : List Coin) (id : Bytes) (details : Details)
    (s : State) : Out :=
  orErr (s.bids.get? id) .notFound >>= fun bid0 =>
  ensure (sender = bid0.creator) .unauthorized >>= fun _ =>
  onlyValidPrice s s.config bid0.collection details.price >>= fun _ =>
  nbNormalize funds >>= fun funds =>
  nbAdd funds bid0.details.price >>= fun funds =>
  let bid := { bid0 with details := details }
  match bid.matchWithAsk p s with
  | some ask =>
    takePrice funds ask.details.price >>= fun left =>
    finalizeSale p ctx s ask s.config (.bid bid) true [] >>= fun r =>
    .ok (r.1, refund sender left r.2)
  | none =>
    takePrice funds bid.details.price >>= fun left =>
    .ok ({ s with bids := s.bids.insert bid.id bid }, refund sender left [])

/-- execute.rs 650-686 -/
def executeRemoveBid (sender : Addr) (funds : List Coin) (id : Bytes) (s : State) : Out :=
  nonpayable funds >>= fun _ =>
  orErr (s.bids.get? id) .notFound >>= fun bid =>
  ensure (sender = bid.creator) .unauthorized >>= fun _ =>
  .ok ({ s with bids := s.bids.erase bid.id }, [transferCoin bid.details.price sender])

/-- execute.rs 704-723 / 975-997: the ask used when accepting a bid. -/
def acceptorAsk (ctx : Ctx) (sender : Addr) (collection : Addr) (tokenId : Bytes) (details : Details)
    (s : State) : Res Ask :=
  match s.asks.get? (askId p collection tokenId) with
  | some ask => ensure (sender = ask.creator) .unauthorized >>= fun _ => .ok ask
  | none =>
    onlyOwner ctx sender collection tokenId >>= fun _ =>
    .ok (Ask.new p sender collection tokenId details)

/-- execute.rs 688-737 -/
def executeAcceptBid (ctx : Ctx) (sender : Addr) (id : Bytes) (details : Details) (s : State) : Out :=
  orErr (s.bids.get? id) .notFound >>= fun bid =>
  ensure (hasCoins [bid.details.price] details.price = true) .invalidInput >>= fun _ =>
  acceptorAsk p ctx sender bid.collection bid.tokenId details s >>= fun ask =>
  finalizeSale p ctx s ask s.config (.bid bid) false []

/-- execute.rs 739-829 -/
def executeSetCollectionBid (ctx : Ctx) (sender : Addr) (funds : List Coin) (collection : Addr)
    (details : Details) (buyNow : Bool) (s : State) : Out :=
  onlyTradable ctx collection >>= fun _ =>
  onlyValidPrice s s.config collection details.price >>= fun _ =>
  nbNormalize funds >>= fun funds =>
  let nonce := nextNonce s
  let s := { s with nonce := nonce }
  let cbid := CBid.new p sender collection details ctx.height nonce
  cbid.matchWithAsk p s >>= fun m =>
  match m with
  | some ask =>
    takePrice funds ask.details.price >>= fun left =>
    finalizeSale p ctx s ask s.config (.cbid cbid) true [] >>= fun r =>
    .ok (r.1, refund sender left r.2)
  | none =>
    if buyNow then .error .noMatch
    else
      takePrice funds cbid.details.price >>= fun left =>
      ensure (s.cbids.get? cbid.id = none) .internal >>= fun _ =>
      .ok ({ s with cbids := s.cbids.insert cbid.id cbid }, refund sender left [])

/-- execute.rs 831-918 -/
def executeUpdateCollectionBid (ctx : Ctx) (sender : Addr) (funds : List Coin) (id : Bytes)
    (details : Details) (s : State) : Out :=
  orErr (s.cbids.get? id) .notFound >>= fun cbid0 =>
  ensure (sender = cbid0.creator) .unauthorized >>= fun _ =>
  onlyValidPrice s s.config cbid0.collection details.price >>= fun _ =>
  nbNormalize funds >>= fun funds =>
  nbAdd funds cbid0.details.price >>= fun funds =>
  let cbid := { cbid0 with details := details }
  cbid.matchWithAsk p s >>= fun m =>
  match m with
  | some ask =>
    takePrice funds ask.details.price >>= fun left =>
    finalizeSale p ctx s ask s.config (.cbid cbid) true [] >>= fun r =>
    .ok (r.1, refund sender left r.2)
  | none =>
    takePrice funds cbid.details.price >>= fun left =>
    .ok ({ s with cbids := s.cbids.insert cbid.id cbid }, refund sender left [])

/-- execute.rs 920-956 -/
def executeRemoveCollectionBid (sender : Addr) (funds : List Coin) (id : Bytes) (s : State) : Out :=
  nonpayable funds >>= fun _ =>
  orErr (s.cbids.get? id) .notFound >>= fun cbid =>
  ensure (sender = cbid.creator) .unauthorized >>= fun _ =>
  .ok ({ s with cbids := s.cbids.erase cbid.id }, [transferCoin cbid.details.price sender])

/-- execute.rs 958-1011 -/
def executeAcceptCollectionBid (ctx : Ctx) (sender : Addr) (id : Bytes) (tokenId : Bytes)
    (details : Details) (s : State) : Out :=
  orErr (s.cbids.get? id) .notFound >>= fun cbid =>
  ensure (hasCoins [cbid.details.price] details.price = true) .invalidInput >>= fun _ =>
  acceptorAsk p ctx sender cbid.collection tokenId details s >>= fun ask =>
  finalizeSale p ctx s ask s.config (.cbid cbid) false []

/-- execute.rs 28-149 `execute` -/
def execute (ctx : Ctx) (sender : Addr) (funds : List Coin) (m : Exec) (s : State) : Out :=
  match m with
  | .updateConfig c => c.strToAddr p >>= fun c => executeUpdateConfig ctx sender c s
  | .updateCollectionDenom coll denom =>
    addrValidate p coll >>= fun coll => executeUpdateCollectionDenom ctx sender coll denom s
  | .setListingFee fee => executeSetListingFee ctx sender fee s
  | .removeListingFee denom => executeRemoveListingFee ctx sender denom s
  | .setAsk coll tok d =>
    addrValidate p coll >>= fun coll => d.strToAddr p >>= fun d => executeSetAsk p ctx sender funds coll tok d false s
  | .updateAsk id d => d.strToAddr p >>= fun d => executeUpdateAsk p ctx sender funds id d s
  | .removeAsk id => executeRemoveAsk sender funds id s
  | .acceptAsk id d => d.strToAddr p >>= fun d => executeAcceptAsk p ctx sender funds id d s
  | .setBid coll tok d =>
    addrValidate p coll >>= fun coll => d.strToAddr p >>= fun d => executeSetBid p ctx sender funds coll tok d false s
  | .updateBid id d => d.strToAddr p >>= fun d => executeUpdateBid p ctx sender funds id d s
  | .removeBid id => executeRemoveBid sender funds id s
  | .acceptBid id d => d.strToAddr p >>= fun d => executeAcceptBid p ctx sender id d s
  | .setCollectionBid coll d =>
    addrValidate p coll >>= fun coll => d.strToAddr p >>= fun d =>
      executeSetCollectionBid p ctx sender funds coll d false s
  | .updateCollectionBid id d => d.strToAddr p >>= fun d => executeUpdateCollectionBid p ctx sender funds id d s
  | .removeCollectionBid id => executeRemoveCollectionBid sender funds id s
  | .acceptCollectionBid id tok d => d.strToAddr p >>= fun d => executeAcceptCollectionBid p ctx sender id tok d s
  | .sellNft coll tok d =>
    addrValidate p coll >>= fun coll => d.strToAddr p >>= fun d => executeSetAsk p ctx sender funds coll tok d true s
  | .buySpecificNft coll tok d =>
    addrValidate p coll >>= fun coll => d.strToAddr p >>= fun d => executeSetBid p ctx sender funds coll tok d true s
  | .buyCollectionNft coll d =>
    addrValidate p coll >>= fun coll => d.strToAddr p >>= fun d =>
      executeSetCollectionBid p ctx sender funds coll d true s

/-- instantiate.rs 16-45 `instantiate` -/
def instantiate (c : Config) : Res State :=
  c.strToAddr p >>= fun c =>
  c.validate >>= fun _ =>
  .ok { config := c, collectionDenoms := .empty, listingFees := .empty, nonce := 0,
        asks := .empty, bids := .empty, cbids := .empty }

/-- The v2 marketplace as a chain contract (it has no sudo entry point). -/
def sys (self : Addr) (honest : Addr → Prop) : Sys State Exec Empty where
  self := self
  honest := honest
  exec := execute p
  sudo := fun _ m _ => nomatch m

end
end Verif.V2

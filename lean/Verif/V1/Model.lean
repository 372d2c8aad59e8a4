/-
contracts/marketplace/src (marketplace v1): instantiate, execute, sudo. Line numbers refer to files in that directory.
Queries are in Query.lean.

Simplifications: token ids (`u32`) are `Nat`; events and attributes are in Events.lean; a hook message carries only the
fields of `HookInfo`; sg1 `fair_burn(fee)` is one message that takes `fee` out of the contract.
-/
import Verif.Base.AMap
import Verif.Base.Range
import Verif.Base.Chain
import Verif.Common.Nft

namespace Verif.V1
open Verif

/-- sg_std `NATIVE_DENOM` = "ustars" -/
def NATIVE : Denom := [117, 115, 116, 97, 114, 115]

/-- execute.rs 35, sudo.rs 13 `MAX_FEE_BPS` -/
def MAX_FEE_BPS : Nat := 10000
/-- execute.rs 37 `MAX_FIXED_PRICE_ASK_AMOUNT` -/
def MAX_FIXED_PRICE_ASK_AMOUNT : Nat := 100000000000000

/-- helpers.rs 50-53 `ExpiryRange` (seconds) -/
structure ExpiryRange where
  min : Nat
  max : Nat
  deriving DecidableEq, Repr

/-- cw_utils `Duration` -/
inductive Duration where
  | height (n : Nat)
  | time (n : Nat)
  deriving DecidableEq, Repr

/-- state.rs 11-33 `SudoParams` (percentages are Decimal atomics of `Decimal::percent(bps)`) -/
structure SudoParams where
  tradingFee : Nat
  askExpiry : ExpiryRange
  bidExpiry : ExpiryRange
  operators : List Addr
  maxFindersFee : Nat
  minPrice : Nat
  staleBidDuration : Duration
  bidRemovalReward : Nat
  listingFee : Nat
  deriving DecidableEq, Repr

/-- state.rs 53-56 `SaleType` -/
inductive SaleType | fixedPrice | auction
  deriving DecidableEq, Repr

/-- state.rs 69-80 `Ask`; `expiresAt` in nanoseconds -/
structure Ask where
  saleType : SaleType
  collection : Addr
  tokenId : Nat
  seller : Addr
  price : Nat
  fundsRecipient : Option Addr
  reserveFor : Option Addr
  findersFee : Option Nat
  expiresAt : Nat
  isActive : Bool
  deriving DecidableEq, Repr

/-- state.rs 132-139 `Bid` -/
structure Bid where
  collection : Addr
  tokenId : Nat
  bidder : Addr
  price : Nat
  findersFee : Option Nat
  expiresAt : Nat
  deriving DecidableEq, Repr

/-- state.rs 230-236 `CollectionBid` -/
structure CBid where
  collection : Addr
  bidder : Addr
  price : Nat
  findersFee : Option Nat
  expiresAt : Nat
  deriving DecidableEq, Repr

/-- state.rs 89 `AskKey`, 168 `BidKey`, 245 `CollectionBidKey` -/
abbrev AskKey := Addr × Nat
abbrev BidKey := Addr × Nat × Addr
abbrev CBidKey := Addr × Addr

/-- Contract storage: state.rs 35-40, 109-128 `asks`, 197-226 `bids`, 272-297 `collection_bids`. -/
structure State where
  params : SudoParams
  asks : AMap AskKey Ask
  bids : AMap BidKey Bid
  cbids : AMap CBidKey CBid
  askHooks : List Addr
  bidHooks : List Addr
  saleHooks : List Addr
  cbidHooks : List Addr

/-- Fixed for a deployment: address validation. -/
structure Params where
  valid : Bytes → Bool

/-- Nanoseconds per second. -/
def NS : Nat := 1000000000

/-- `Timestamp::plus_seconds`: panics on u64 overflow -/
def plusSeconds (t n : Nat) : Res Nat := u64 (t + n * NS)

/-- Decimal digits of `n` (`fuel > n` suffices). -/
def decimal : Nat → Nat → Bytes
  | 0, _ => []
  | fuel + 1, n =>
    if n < 10 then [UInt8.ofNat (48 + n)] else decimal fuel (n / 10) ++ [UInt8.ofNat (48 + n % 10)]

/-- `token_id.to_string()` -/
def tokStr (n : Nat) : Bytes := decimal (n + 1) n

/-- `api.addr_validate` -/
def addrValidate (p : Params) (a : Bytes) : Res Addr := if p.valid a then .ok a else .error .std

/-- `cw_utils::maybe_addr` -/
def maybeAddr (p : Params) (a : Option Bytes) : Res (Option Addr) :=
  match a with
  | none => .ok none
  | some x => addrValidate p x >>= fun y => .ok (some y)

/-- msg.rs 39-137 `ExecuteMsg` -/
inductive Exec where
  | setAsk (ty : SaleType) (coll : Bytes) (tok : Nat) (price : Coin) (recipient reserveFor : Option Bytes)
      (fee : Option Nat) (expires : Nat)
  | removeAsk (coll : Bytes) (tok : Nat)
  | updateAskPrice (coll : Bytes) (tok : Nat) (price : Coin)
  | setBid (coll : Bytes) (tok expires : Nat) (ty : SaleType) (finder : Option Bytes) (fee : Option Nat)
  | buyNow (coll : Bytes) (tok expires : Nat) (finder : Option Bytes) (fee : Option Nat)
  | buyFor (coll : Bytes) (tok expires : Nat) (finder : Option Bytes) (fee : Option Nat) (recipient : Bytes)
  | removeBid (coll : Bytes) (tok : Nat)
  | acceptBid (coll : Bytes) (tok : Nat) (bidder : Bytes) (finder : Option Bytes)
  | rejectBid (coll : Bytes) (tok : Nat) (bidder : Bytes)
  | setCollectionBid (coll : Bytes) (expires : Nat) (fee : Option Nat)
  | removeCollectionBid (coll : Bytes)
  | acceptCollectionBid (coll : Bytes) (tok : Nat) (bidder : Bytes) (finder : Option Bytes)
  | syncAsk (coll : Bytes) (tok : Nat)
  | removeStaleAsk (coll : Bytes) (tok : Nat)
  | removeStaleBid (coll : Bytes) (tok : Nat) (bidder : Bytes)
  | removeStaleCollectionBid (coll bidder : Bytes)
  deriving DecidableEq, Repr

/-- msg.rs 143-153, fields of `SudoMsg::UpdateParams` (`operators` is accepted and ignored) -/
structure Update where
  tradingFeeBps : Option Nat := none
  askExpiry : Option ExpiryRange := none
  bidExpiry : Option ExpiryRange := none
  operators : Option (List Bytes) := none
  maxFindersFeeBps : Option Nat := none
  minPrice : Option Nat := none
  staleBidDuration : Option Nat := none
  bidRemovalRewardBps : Option Nat := none
  listingFee : Option Nat := none
  deriving DecidableEq, Repr

/-- msg.rs 140-170 `SudoMsg` -/
inductive Sudo where
  | updateParams (u : Update)
  | addOperator (a : Bytes)
  | removeOperator (a : Bytes)
  | addAskHook (a : Bytes)
  | addBidHook (a : Bytes)
  | removeAskHook (a : Bytes)
  | removeBidHook (a : Bytes)
  | addSaleHook (a : Bytes)
  | removeSaleHook (a : Bytes)
  deriving DecidableEq, Repr

/-- msg.rs 11-36 `InstantiateMsg` -/
structure Init where
  tradingFeeBps : Nat
  askExpiry : ExpiryRange
  bidExpiry : ExpiryRange
  operators : List Bytes
  saleHook : Option Bytes
  maxFindersFeeBps : Nat
  minPrice : Nat
  staleBidDuration : Duration
  bidRemovalRewardBps : Nat
  listingFee : Nat
  deriving DecidableEq, Repr

/-- Result of a handler. -/
abbrev Out := Res (State × List Msg)

/-- helpers.rs 61-68 `ExpiryRange::is_valid` -/
def ExpiryRange.isValid (r : ExpiryRange) (now expires : Nat) : Res Unit :=
  plusSeconds now r.min >>= fun lo =>
  ensure (lo < expires) .expired >>= fun _ =>
  plusSeconds now r.max >>= fun hi =>
  ensure (expires ≤ hi) .expired

/-- helpers.rs 70-76 `ExpiryRange::validate` -/
def ExpiryRange.validate (r : ExpiryRange) : Res Unit := ensure (r.min ≤ r.max) .invalidConfig

/-- execute.rs 1391-1403 `prepare_ask_hook` (sg-controllers `prepare_hooks`: one message per registered hook) -/
def askHook (s : State) (a : Ask) (act : HookAction) : List Msg :=
  s.askHooks.map (fun h => .hook h ⟨.ask, some act, a.collection, some a.tokenId, a.price, a.seller, none⟩)

/-- execute.rs 1405-1423 `prepare_sale_hook` -/
def saleHook (s : State) (a : Ask) (buyer : Addr) : List Msg :=
  s.saleHooks.map (fun h => .hook h ⟨.sale, none, a.collection, some a.tokenId, a.price, a.seller, some buyer⟩)

/-- execute.rs 1425-1437 `prepare_bid_hook` -/
def bidHook (s : State) (b : Bid) (act : HookAction) : List Msg :=
  s.bidHooks.map (fun h => .hook h ⟨.bid, some act, b.collection, some b.tokenId, b.price, b.bidder, none⟩)

/-- execute.rs 1439-1460 `prepare_collection_bid_hook` -/
def cbidHook (s : State) (b : CBid) (act : HookAction) : List Msg :=
  s.cbidHooks.map (fun h => .hook h ⟨.collectionBid, some act, b.collection, none, b.price, b.bidder, none⟩)

/-- execute.rs 1265-1275 `price_validate` -/
def priceValidate (s : State) (c : Coin) : Res Unit :=
  ensure (c.amount ≠ 0 ∧ c.denom = NATIVE) .invalidPrice >>= fun _ =>
  ensure (s.params.minPrice ≤ c.amount) .tooLow

/-- execute.rs 1290-1303 `only_owner`: a failing query is an error -/
def onlyOwner (ctx : Ctx) (sender coll : Addr) (tok : Nat) : Res Unit :=
  orErr (ctx.q.ownerOf coll (tokStr tok)) .std >>= fun o => ensure (o = sender) .unauthorized

/-- execute.rs 1306-1326 `only_tradable`: a failing query passes -/
def onlyTradable (ctx : Ctx) (coll : Addr) : Res Unit :=
  match ctx.q.collInfo coll with
  | some info =>
    match info.start with
    | some t => ensure (¬ ctx.time < t) .notTradable
    | none => .ok ()
  | none => .ok ()

/-- execute.rs 1329-1340 `only_operator` -/
def onlyOperator (s : State) (sender : Addr) : Res Unit :=
  ensure (sender ∈ s.params.operators) .notOperator

/-- execute.rs 356-360, 499-503, 784-788: the finder's fee is at most the maximum -/
def feeOk (s : State) (fee : Option Nat) : Res Unit :=
  match fee with
  | some f => ensure (percent f ≤ s.params.maxFindersFee) .wrongFee
  | none => .ok ()

/-- execute.rs 1205-1219: the finder's fee -/
def findersFee (payment : Nat) (finder : Option Addr) (fee : Option Nat) : Res Nat :=
  match finder with
  | some _ =>
    match fee with
    | some f => mulFloor payment (percent f) >>= fun n => .ok (n / 100)
    | none => .ok 0
  | none => .ok 0

/-- execute.rs 1210-1215: message paying the finder -/
def finderMsg (finder : Option Addr) (amount : Nat) : List Msg :=
  match finder with
  | some f => if 0 < amount then [.send f [⟨NATIVE, amount⟩]] else []
  | none => []

/-- execute.rs 1174-1184 `parse_royalties` -/
def parseRoyalties (r : Option Royalty) : Option Royalty :=
  match r with
  | some x => if x.share = 0 then none else some x
  | none => none

/-- execute.rs 1186-1263 `payout`: messages added -/
def payout (ctx : Ctx) (s : State) (coll : Addr) (payment : Nat) (to : Addr) (finder : Option Addr) (fee : Option Nat) :
    Res (List Msg) :=
  mulFloor payment s.params.tradingFee >>= fun n =>
  orErr (ctx.q.collInfo coll) .std >>= fun info =>
  findersFee payment finder fee >>= fun ff =>
  match parseRoyalties info.royalty with
  | some roy =>
    mulFloor payment roy.share >>= fun amount =>
    u128 (n / 100 + ff + amount) >>= fun total =>
    ensure (total ≤ payment) .feesExceed >>= fun _ =>
    -- `Decimal::one() - royalty.share` panics if the share exceeds one
    subChk ONE roy.share >>= fun rest =>
    mulFloor payment rest >>= fun x =>
    subChk x (n / 100) >>= fun y =>
    subChk y ff >>= fun z =>
    .ok (.fairBurn [⟨NATIVE, n / 100⟩] :: finderMsg finder ff ++
      [.send roy.recipient [⟨NATIVE, amount⟩], .send to [⟨NATIVE, z⟩]])
  | none =>
    u128 (n / 100 + ff) >>= fun total =>
    ensure (total ≤ payment) .feesExceed >>= fun _ =>
    subChk payment (n / 100) >>= fun y =>
    subChk y ff >>= fun z =>
    .ok (.fairBurn [⟨NATIVE, n / 100⟩] :: finderMsg finder ff ++ [.send to [⟨NATIVE, z⟩]])

/-- execute.rs 1124-1171 `finalize_sale`: messages added -/
def finalizeSale (ctx : Ctx) (s : State) (a : Ask) (price : Nat) (buyer : Addr) (finder recipient : Option Addr) :
    Res (List Msg) :=
  payout ctx s a.collection price (a.fundsRecipient.getD a.seller) finder a.findersFee >>= fun pay =>
  .ok (pay ++ [.nft a.collection (tokStr a.tokenId) (recipient.getD buyer)] ++ saleHook s a buyer)

section
variable (p : Params)

/-- execute.rs 313-410 `execute_set_ask` -/
def executeSetAsk (ctx : Ctx) (sender : Addr) (funds : List Coin) (ty : SaleType) (coll : Addr) (tok : Nat) (price : Coin)
    (recipient reserveFor : Option Addr) (fee : Option Nat) (expires : Nat) (s : State) : Out :=
  priceValidate s price >>= fun _ =>
  ensure (price.amount ≤ MAX_FIXED_PRICE_ASK_AMOUNT) .invalidPrice >>= fun _ =>
  onlyOwner ctx sender coll tok >>= fun _ =>
  onlyTradable ctx coll >>= fun _ =>
  ensure (ctx.q.approval coll (tokStr tok) = true) .std >>= fun _ =>
  s.params.askExpiry.isValid ctx.time expires >>= fun _ =>
  mayPay funds NATIVE >>= fun paid =>
  ensure (paid = s.params.listingFee) .wrongFee >>= fun _ =>
  feeOk s fee >>= fun _ =>
  ensure (∀ r, reserveFor = some r → r ≠ sender ∧ ty = .fixedPrice) .invalidReserve >>= fun _ =>
  let ask : Ask := ⟨ty, coll, tok, sender, price.amount, recipient, reserveFor, fee, expires, true⟩
  .ok ({ s with asks := s.asks.insert (coll, tok) ask },
    (if 0 < paid then [.fairBurn [⟨NATIVE, paid⟩]] else []) ++ askHook s ask .create)

/-- execute.rs 413-433 `execute_remove_ask` -/
def executeRemoveAsk (ctx : Ctx) (sender : Addr) (funds : List Coin) (coll : Addr) (tok : Nat) (s : State) : Out :=
  nonpayable funds >>= fun _ =>
  onlyOwner ctx sender coll tok >>= fun _ =>
  orErr (s.asks.get? (coll, tok)) .notFound >>= fun ask =>
  .ok ({ s with asks := s.asks.erase (coll, tok) }, askHook s ask .delete)

/-- execute.rs 436-469 `execute_update_ask_price` -/
def executeUpdateAskPrice (ctx : Ctx) (sender : Addr) (funds : List Coin) (coll : Addr) (tok : Nat) (price : Coin)
    (s : State) : Out :=
  nonpayable funds >>= fun _ =>
  onlyOwner ctx sender coll tok >>= fun _ =>
  priceValidate s price >>= fun _ =>
  orErr (s.asks.get? (coll, tok)) .notFound >>= fun ask =>
  ensure (ask.isActive = true) .notActive >>= fun _ =>
  ensure (¬ ask.expiresAt ≤ ctx.time) .expired >>= fun _ =>
  let ask' : Ask := { ask with price := price.amount }
  .ok ({ s with asks := s.asks.insert (coll, tok) ask' }, askHook s ask' .update)

/-- execute.rs 547-558 and 617-621: store the bid; messages of the bid hook -/
def saveBid (b : Bid) (msgs : List Msg) (s : State) : State × List Msg :=
  ({ s with bids := s.bids.insert (b.collection, b.tokenId, b.bidder) b }, msgs ++ bidHook s b .create)

/-- execute.rs 520-527: an existing bid of the sender is removed and refunded -/
def refundOld (coll : Addr) (tok : Nat) (sender : Addr) (s : State) : State × List Msg :=
  match s.bids.get? (coll, tok, sender) with
  | some b => ({ s with bids := s.bids.erase (coll, tok, sender) }, [.send sender [⟨NATIVE, b.price⟩]])
  | none => (s, [])

/-- execute.rs 472-632 `execute_set_bid` -/
def executeSetBid (ctx : Ctx) (sender : Addr) (funds : List Coin) (coll : Addr) (tok expires : Nat)
    (finder : Option Addr) (fee : Option Nat) (recipient : Option Addr) (buyNow : Bool) (s : State) : Out :=
  ensure (finder ≠ some sender) .invalidFinder >>= fun _ =>
  feeOk s fee >>= fun _ =>
  mustPay funds NATIVE >>= fun price =>
  ensure (s.params.minPrice ≤ price) .tooLow >>= fun _ =>
  s.params.bidExpiry.isValid ctx.time expires >>= fun _ =>
  let s1 := (refundOld coll tok sender s).1
  let msgs := (refundOld coll tok sender s).2
  let bid : Bid := ⟨coll, tok, sender, price, fee, expires⟩
  match s1.asks.get? (coll, tok) with
  | some ask =>
    ensure (¬ ask.expiresAt ≤ ctx.time) .expired >>= fun _ =>
    ensure (ask.isActive = true) .notActive >>= fun _ =>
    ensure (∀ r, ask.reserveFor = some r → r = sender) .tokenReserved >>= fun _ =>
    match ask.saleType with
    | .fixedPrice =>
      if ask.price < price then .error .invalidPrice
      else if price < ask.price then .ok (saveBid bid msgs s1)
      else
        let s2 : State := { s1 with asks := s1.asks.erase (coll, tok) }
        orErr (ctx.q.ownerOf ask.collection (tokStr ask.tokenId)) .notFound >>= fun owner =>
        ensure (ask.seller = owner) .notFound >>= fun _ =>
        finalizeSale ctx s2 ask price sender finder recipient >>= fun sale =>
        .ok (s2, msgs ++ sale)
    | .auction => if price < ask.price then .error .invalidPrice else .ok (saveBid bid msgs s1)
  | none => if buyNow then .error .notFound else .ok (saveBid bid msgs s1)

/-- execute.rs 635-667 `execute_remove_bid` -/
def executeRemoveBid (sender : Addr) (funds : List Coin) (coll : Addr) (tok : Nat) (s : State) : Out :=
  nonpayable funds >>= fun _ =>
  orErr (s.bids.get? (coll, tok, sender)) .notFound >>= fun bid =>
  .ok ({ s with bids := s.bids.erase (coll, tok, sender) },
    .send bid.bidder [⟨NATIVE, bid.price⟩] :: bidHook s bid .delete)

/-- execute.rs 670-731 `execute_accept_bid` -/
def executeAcceptBid (ctx : Ctx) (sender : Addr) (funds : List Coin) (coll : Addr) (tok : Nat) (bidder : Addr)
    (finder : Option Addr) (s : State) : Out :=
  nonpayable funds >>= fun _ =>
  onlyOwner ctx sender coll tok >>= fun _ =>
  onlyTradable ctx coll >>= fun _ =>
  orErr (s.bids.get? (coll, tok, bidder)) .notFound >>= fun bid =>
  ensure (¬ bid.expiresAt ≤ ctx.time) .expired >>= fun _ =>
  let ask : Ask := ⟨.auction, coll, tok, sender, bid.price, some sender, none, bid.findersFee, bid.expiresAt, true⟩
  let s1 : State := { s with asks := s.asks.erase (coll, tok), bids := s.bids.erase (coll, tok, bidder) }
  finalizeSale ctx s1 ask bid.price bidder finder none >>= fun sale =>
  .ok (s1, sale)

/-- execute.rs 733-766 `execute_reject_bid` -/
def executeRejectBid (ctx : Ctx) (sender : Addr) (funds : List Coin) (coll : Addr) (tok : Nat) (bidder : Addr) (s : State) : Out :=
  nonpayable funds >>= fun _ =>
  onlyOwner ctx sender coll tok >>= fun _ =>
  orErr (s.bids.get? (coll, tok, bidder)) .notFound >>= fun bid =>
  .ok ({ s with bids := s.bids.erase (coll, tok, bidder) },
    .send bidder [⟨NATIVE, bid.price⟩] :: bidHook s bid .delete)

/-- execute.rs 769-823 `execute_set_collection_bid` -/
def executeSetCollectionBid (ctx : Ctx) (sender : Addr) (funds : List Coin) (coll : Addr) (expires : Nat) (fee : Option Nat)
    (s : State) : Out :=
  mustPay funds NATIVE >>= fun price =>
  ensure (s.params.minPrice ≤ price) .tooLow >>= fun _ =>
  s.params.bidExpiry.isValid ctx.time expires >>= fun _ =>
  feeOk s fee >>= fun _ =>
  let msgs : List Msg := match s.cbids.get? (coll, sender) with
    | some b => [.send b.bidder [⟨NATIVE, b.price⟩]]
    | none => []
  let bid : CBid := ⟨coll, sender, price, fee, expires⟩
  .ok ({ s with cbids := s.cbids.insert (coll, sender) bid }, msgs ++ cbidHook s bid .create)

/-- execute.rs 826-857 `execute_remove_collection_bid` -/
def executeRemoveCollectionBid (sender : Addr) (funds : List Coin) (coll : Addr) (s : State) : Out :=
  nonpayable funds >>= fun _ =>
  orErr (s.cbids.get? (coll, sender)) .notFound >>= fun bid =>
  .ok ({ s with cbids := s.cbids.erase (coll, sender) },
    .send bid.bidder [⟨NATIVE, bid.price⟩] :: cbidHook s bid .delete)

/-- execute.rs 860-920 `execute_accept_collection_bid` -/
def executeAcceptCollectionBid (ctx : Ctx) (sender : Addr) (funds : List Coin) (coll : Addr) (tok : Nat) (bidder : Addr)
    (finder : Option Addr) (s : State) : Out :=
  nonpayable funds >>= fun _ =>
  onlyOwner ctx sender coll tok >>= fun _ =>
  onlyTradable ctx coll >>= fun _ =>
  orErr (s.cbids.get? (coll, bidder)) .notFound >>= fun bid =>
  ensure (¬ bid.expiresAt ≤ ctx.time) .expired >>= fun _ =>
  let ask : Ask := ⟨.auction, coll, tok, sender, bid.price, some sender, none, bid.findersFee, bid.expiresAt, true⟩
  let s1 : State := { s with cbids := s.cbids.erase (coll, bidder), asks := s.asks.erase (coll, tok) }
  finalizeSale ctx s1 ask bid.price bidder finder none >>= fun sale =>
  .ok (s1, sale)

/-- execute.rs 924-962 `execute_sync_ask` -/
def executeSyncAsk (ctx : Ctx) (sender : Addr) (funds : List Coin) (coll : Addr) (tok : Nat) (s : State) : Out :=
  nonpayable funds >>= fun _ =>
  onlyOperator s sender >>= fun _ =>
  orErr (s.asks.get? (coll, tok)) .notFound >>= fun ask =>
  ensure (ctx.q.approval coll (tokStr tok) ≠ ask.isActive) .exists_ >>= fun _ =>
  let ask' : Ask := { ask with isActive := ctx.q.approval coll (tokStr tok) }
  .ok ({ s with asks := s.asks.insert (coll, tok) ask' }, askHook s ask' .update)

/-- execute.rs 966-1019 `execute_remove_stale_ask` -/
def executeRemoveStaleAsk (ctx : Ctx) (sender : Addr) (funds : List Coin) (coll : Addr) (tok : Nat) (s : State) : Out :=
  nonpayable funds >>= fun _ =>
  onlyOperator s sender >>= fun _ =>
  orErr (s.asks.get? (coll, tok)) .notFound >>= fun ask =>
  ensure (¬ ((ctx.q.ownerOf coll (tokStr tok)).isSome = true ∧ ctx.q.approval coll (tokStr tok) = true ∧
    ¬ ask.expiresAt ≤ ctx.time)) .exists_ >>= fun _ =>
  .ok ({ s with asks := s.asks.erase (coll, tok) }, askHook s ask .delete)

/-- execute.rs 1038-1041: `(Expiration::AtTime(t) + duration)?.is_expired(&env.block)` -/
def checkStale (now t : Nat) (d : Duration) : Res Unit :=
  match d with
  | .time n => plusSeconds t n >>= fun x => ensure (x ≤ now) .notStale
  | .height _ => .error .std

/-- execute.rs 1023-1071 `execute_remove_stale_bid` -/
def executeRemoveStaleBid (ctx : Ctx) (sender : Addr) (funds : List Coin) (coll : Addr) (tok : Nat) (bidder : Addr)
    (s : State) : Out :=
  nonpayable funds >>= fun _ =>
  onlyOperator s sender >>= fun _ =>
  orErr (s.bids.get? (coll, tok, bidder)) .notFound >>= fun bid =>
  checkStale ctx.time bid.expiresAt s.params.staleBidDuration >>= fun _ =>
  mulFloor bid.price s.params.bidRemovalReward >>= fun n =>
  subChk bid.price (n / 100) >>= fun refund =>
  .ok ({ s with bids := s.bids.erase (coll, tok, bidder) },
    .send bid.bidder [⟨NATIVE, refund⟩] :: .send sender [⟨NATIVE, n / 100⟩] :: bidHook s bid .delete)

/-- execute.rs 1075-1121 `execute_remove_stale_collection_bid` -/
def executeRemoveStaleCollectionBid (ctx : Ctx) (sender : Addr) (funds : List Coin) (coll bidder : Addr) (s : State) : Out :=
  nonpayable funds >>= fun _ =>
  onlyOperator s sender >>= fun _ =>
  orErr (s.cbids.get? (coll, bidder)) .notFound >>= fun bid =>
  checkStale ctx.time bid.expiresAt s.params.staleBidDuration >>= fun _ =>
  mulFloor bid.price s.params.bidRemovalReward >>= fun n =>
  subChk bid.price (n / 100) >>= fun refund =>
  .ok ({ s with cbids := s.cbids.erase (coll, bidder) },
    .send bid.bidder [⟨NATIVE, refund⟩] :: .send sender [⟨NATIVE, n / 100⟩] :: cbidHook s bid .delete)

/-- execute.rs 107-310 `execute` -/
def execute (ctx : Ctx) (sender : Addr) (funds : List Coin) (m : Exec) (s : State) : Out :=
  match m with
  | .setAsk ty coll tok price recipient reserveFor fee expires =>
    addrValidate p coll >>= fun coll => maybeAddr p recipient >>= fun recipient => maybeAddr p reserveFor >>= fun reserveFor =>
      executeSetAsk ctx sender funds ty coll tok price recipient reserveFor fee expires s
  | .removeAsk coll tok => addrValidate p coll >>= fun coll => executeRemoveAsk ctx sender funds coll tok s
  | .updateAskPrice coll tok price =>
    addrValidate p coll >>= fun coll => executeUpdateAskPrice ctx sender funds coll tok price s
  -- the sale type of `SetBid` is only used in an event
  | .setBid coll tok expires _ finder fee =>
    addrValidate p coll >>= fun coll => maybeAddr p finder >>= fun finder =>
      executeSetBid ctx sender funds coll tok expires finder fee none false s
  | .buyNow coll tok expires finder fee =>
    addrValidate p coll >>= fun coll => maybeAddr p finder >>= fun finder =>
      executeSetBid ctx sender funds coll tok expires finder fee none true s
  | .buyFor coll tok expires finder fee recipient =>
    addrValidate p coll >>= fun coll => maybeAddr p finder >>= fun finder => addrValidate p recipient >>= fun recipient =>
      executeSetBid ctx sender funds coll tok expires finder fee (some recipient) true s
  | .removeBid coll tok => addrValidate p coll >>= fun coll => executeRemoveBid sender funds coll tok s
  | .acceptBid coll tok bidder finder =>
    addrValidate p coll >>= fun coll => addrValidate p bidder >>= fun bidder => maybeAddr p finder >>= fun finder =>
      executeAcceptBid ctx sender funds coll tok bidder finder s
  | .rejectBid coll tok bidder =>
    addrValidate p coll >>= fun coll => addrValidate p bidder >>= fun bidder => executeRejectBid ctx sender funds coll tok bidder s
  | .setCollectionBid coll expires fee =>
    addrValidate p coll >>= fun coll => executeSetCollectionBid ctx sender funds coll expires fee s
  | .removeCollectionBid coll => addrValidate p coll >>= fun coll => executeRemoveCollectionBid sender funds coll s
  | .acceptCollectionBid coll tok bidder finder =>
    addrValidate p coll >>= fun coll => addrValidate p bidder >>= fun bidder => maybeAddr p finder >>= fun finder =>
      executeAcceptCollectionBid ctx sender funds coll tok bidder finder s
  | .syncAsk coll tok => addrValidate p coll >>= fun coll => executeSyncAsk ctx sender funds coll tok s
  | .removeStaleAsk coll tok => addrValidate p coll >>= fun coll => executeRemoveStaleAsk ctx sender funds coll tok s
  | .removeStaleBid coll tok bidder =>
    addrValidate p coll >>= fun coll => addrValidate p bidder >>= fun bidder =>
      executeRemoveStaleBid ctx sender funds coll tok bidder s
  | .removeStaleCollectionBid coll bidder =>
    addrValidate p coll >>= fun coll => addrValidate p bidder >>= fun bidder =>
      executeRemoveStaleCollectionBid ctx sender funds coll bidder s

/-- sudo.rs 87-103: an optional fee is at most 100% -/
def bpsOk (o : Option Nat) : Res Unit :=
  match o with
  | some n => ensure (n ≤ MAX_FEE_BPS) .invalidConfig
  | none => .ok ()

/-- sudo.rs 105-106: an optional range is ordered -/
def rangeOk (o : Option ExpiryRange) : Res Unit :=
  match o with
  | some r => r.validate
  | none => .ok ()

/-- sudo.rs 71-136 `sudo_update_params` -/
def updateParams (u : Update) (s : State) : Out :=
  bpsOk u.maxFindersFeeBps >>= fun _ =>
  bpsOk u.tradingFeeBps >>= fun _ =>
  bpsOk u.bidRemovalRewardBps >>= fun _ =>
  rangeOk u.askExpiry >>= fun _ =>
  rangeOk u.bidExpiry >>= fun _ =>
  let c : SudoParams :=
    { s.params with
      tradingFee := (u.tradingFeeBps.map percent).getD s.params.tradingFee
      askExpiry := u.askExpiry.getD s.params.askExpiry
      bidExpiry := u.bidExpiry.getD s.params.bidExpiry
      maxFindersFee := (u.maxFindersFeeBps.map percent).getD s.params.maxFindersFee
      minPrice := u.minPrice.getD s.params.minPrice
      staleBidDuration := (u.staleBidDuration.map Duration.time).getD s.params.staleBidDuration
      bidRemovalReward := (u.bidRemovalRewardBps.map percent).getD s.params.bidRemovalReward
      listingFee := u.listingFee.getD s.params.listingFee }
  .ok ({ s with params := c }, [])

/-- sudo.rs 138-150 `sudo_add_operator` -/
def addOperator (a : Addr) (s : State) : Out :=
  ensure (a ∉ s.params.operators) .exists_ >>= fun _ =>
  .ok ({ s with params := { s.params with operators := s.params.operators ++ [a] } }, [])

/-- sudo.rs 152-164 `sudo_remove_operator`: removes the first occurrence -/
def removeOperator (a : Addr) (s : State) : Out :=
  ensure (a ∈ s.params.operators) .notFound >>= fun _ =>
  .ok ({ s with params := { s.params with operators := s.params.operators.erase a } }, [])

/-- sg-controllers `Hooks::add_hook`: error if registered -/
def addHook (hs : List Addr) (a : Addr) : Res (List Addr) :=
  ensure (a ∉ hs) .exists_ >>= fun _ => .ok (hs ++ [a])

/-- sg-controllers `Hooks::remove_hook`: error if not registered -/
def removeHook (hs : List Addr) (a : Addr) : Res (List Addr) :=
  ensure (a ∈ hs) .notFound >>= fun _ => .ok (hs.erase a)

/-- sudo.rs 28-68 `sudo`, 166-218 -/
def sudo (_ctx : Ctx) (m : Sudo) (s : State) : Out :=
  match m with
  | .updateParams u => updateParams u s
  | .addOperator a => addrValidate p a >>= fun a => addOperator a s
  | .removeOperator a => addrValidate p a >>= fun a => removeOperator a s
  | .addSaleHook a => addrValidate p a >>= fun a => addHook s.saleHooks a >>= fun hs => .ok ({ s with saleHooks := hs }, [])
  | .addAskHook a => addrValidate p a >>= fun a => addHook s.askHooks a >>= fun hs => .ok ({ s with askHooks := hs }, [])
  | .addBidHook a => addrValidate p a >>= fun a => addHook s.bidHooks a >>= fun hs => .ok ({ s with bidHooks := hs }, [])
  | .removeSaleHook a => addrValidate p a >>= fun a => removeHook s.saleHooks a >>= fun hs => .ok ({ s with saleHooks := hs }, [])
  | .removeAskHook a => addrValidate p a >>= fun a => removeHook s.askHooks a >>= fun hs => .ok ({ s with askHooks := hs }, [])
  | .removeBidHook a => addrValidate p a >>= fun a => removeHook s.bidHooks a >>= fun hs => .ok ({ s with bidHooks := hs }, [])

/-- execute.rs 40-85 `instantiate` -/
def instantiate (i : Init) : Res State :=
  ensure (i.maxFindersFeeBps ≤ MAX_FEE_BPS) .invalidConfig >>= fun _ =>
  ensure (i.tradingFeeBps ≤ MAX_FEE_BPS) .invalidConfig >>= fun _ =>
  ensure (i.bidRemovalRewardBps ≤ MAX_FEE_BPS) .invalidConfig >>= fun _ =>
  i.askExpiry.validate >>= fun _ =>
  i.bidExpiry.validate >>= fun _ =>
  (match i.staleBidDuration with
    | .height _ => .error .invalidConfig
    | .time _ => .ok ()) >>= fun _ =>
  -- helpers.rs 27-35 `map_validate` (same code as in sg-marketplace-common)
  mapValidate p.valid i.operators >>= fun ops =>
  (match i.saleHook with
    | some h => addrValidate p h >>= fun h => addHook [] h
    | none => .ok []) >>= fun hooks =>
  .ok { params := ⟨percent i.tradingFeeBps, i.askExpiry, i.bidExpiry, ops, percent i.maxFindersFeeBps, i.minPrice,
          i.staleBidDuration, percent i.bidRemovalRewardBps, i.listingFee⟩
        asks := .empty, bids := .empty, cbids := .empty, askHooks := [], bidHooks := [], saleHooks := hooks, cbidHooks := [] }

/-- Marketplace v1 as a chain contract. `reply` (execute.rs 1362-1389) only emits attributes and is never reached on
success (`reply_on_error`): the chain's `ret` step. -/
def sys (self : Addr) (honest : Addr → Prop) : Sys State Exec Sudo where
  self := self
  honest := honest
  exec := execute p
  sudo := sudo p

end
end Verif.V1

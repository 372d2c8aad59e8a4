/-
Events of contracts/marketplace/src (marketplace v1). The handlers are those of `Verif.V1.Model` with the events of the
response added; `Verif.V1.EventLemmas` proves that leaving the events out gives the handlers of the model. Line numbers
refer to files in that directory.

Attributes added to the response itself appear on the chain as an event of type `wasm`; they are modelled as such an
event. sg1 `fair_burn` also takes the response; events it may add are not modelled.
-/
import Verif.Base.EventNum
import Verif.V1.Model

namespace Verif.V1
open Verif

/-- Result of a handler with the events of the response. -/
abbrev OutE := Res (State × List Msg × List Event)

/-- `bool::to_string` -/
def showBool (b : Bool) : Bytes := txt (if b then "true" else "false")

/-- state.rs 58-65 `Display for SaleType` -/
def showSale : SaleType → Bytes
  | .fixedPrice => txt "fixed_price"
  | .auction => txt "auction"

/-- execute.rs 362-365, 378, 402-405 -/
def setAskEvent (a : Ask) (price : Coin) : Event :=
  ⟨"set-ask", [("collection", a.collection), ("token_id", tokStr a.tokenId), ("sale_type", showSale a.saleType)] ++
    optAttr "reserve_for" a.reserveFor ++
    [("seller", a.seller), ("price", showCoin price), ("expires", showTime a.expiresAt)]⟩

/-- execute.rs 428-430 -/
def removeAskEvent (coll : Addr) (tok : Nat) : Event :=
  ⟨"remove-ask", [("collection", coll), ("token_id", tokStr tok)]⟩

/-- execute.rs 463-466 -/
def updateAskEvent (coll : Addr) (tok : Nat) (price : Coin) : Event :=
  ⟨"update-ask", [("collection", coll), ("token_id", tokStr tok), ("price", showCoin price)]⟩

/-- execute.rs 623-629; `ty` is the sale type named in the message -/
def setBidEvent (ty : SaleType) (b : Bid) : Event :=
  ⟨"set-bid", [("collection", b.collection), ("sale_type", showSale ty), ("token_id", tokStr b.tokenId),
    ("bidder", b.bidder), ("bid_price", showNat b.price), ("expires", showTime b.expiresAt)]⟩

/-- execute.rs 656-659 -/
def removeBidEvent (coll : Addr) (tok : Nat) (bidder : Addr) : Event :=
  ⟨"remove-bid", [("collection", coll), ("token_id", tokStr tok), ("bidder", bidder)]⟩

/-- execute.rs 724-728 -/
def acceptBidEvent (coll : Addr) (tok : Nat) (bidder : Addr) (price : Nat) : Event :=
  ⟨"accept-bid", [("collection", coll), ("token_id", tokStr tok), ("bidder", bidder), ("price", showNat price)]⟩

/-- execute.rs 756-760 -/
def rejectBidEvent (coll : Addr) (tok : Nat) (bidder : Addr) (price : Nat) : Event :=
  ⟨"reject-bid", [("collection", coll), ("token_id", tokStr tok), ("bidder", bidder), ("price", showNat price)]⟩

/-- execute.rs 816-820 -/
def setCBidEvent (b : CBid) : Event :=
  ⟨"set-collection-bid", [("collection", b.collection), ("bidder", b.bidder), ("bid_price", showNat b.price),
    ("expires", showTime b.expiresAt)]⟩

/-- execute.rs 847-849 -/
def removeCBidEvent (coll bidder : Addr) : Event :=
  ⟨"remove-collection-bid", [("collection", coll), ("bidder", bidder)]⟩

/-- execute.rs 912-917 -/
def acceptCBidEvent (coll : Addr) (tok : Nat) (bidder seller : Addr) (price : Nat) : Event :=
  ⟨"accept-collection-bid", [("collection", coll), ("token_id", tokStr tok), ("bidder", bidder), ("seller", seller),
    ("price", showNat price)]⟩

/-- execute.rs 956-959 -/
def syncEvent (coll : Addr) (tok : Nat) (active : Bool) : Event :=
  ⟨"update-ask-state", [("collection", coll), ("token_id", tokStr tok), ("is_active", showBool active)]⟩

/-- execute.rs 1010-1016 -/
def staleAskEvent (coll : Addr) (tok : Nat) (oper : Addr) (expired hasOwner hasApproval : Bool) : Event :=
  ⟨"remove-ask", [("collection", coll), ("token_id", tokStr tok), ("operator", oper), ("expired", showBool expired),
    ("has_owner", showBool hasOwner), ("has_approval", showBool hasApproval)]⟩

/-- execute.rs 1059-1064 -/
def staleBidEvent (coll : Addr) (tok : Nat) (bidder oper : Addr) (reward : Nat) : Event :=
  ⟨"remove-stale-bid", [("collection", coll), ("token_id", tokStr tok), ("bidder", bidder), ("operator", oper),
    ("reward", showNat reward)]⟩

/-- execute.rs 1110-1114 -/
def staleCBidEvent (coll bidder oper : Addr) (reward : Nat) : Event :=
  ⟨"remove-stale-collection-bid", [("collection", coll), ("bidder", bidder), ("operator", oper),
    ("reward", showNat reward)]⟩

/-- execute.rs 1161-1167 -/
def saleEvent (a : Ask) (price : Nat) (buyer recipient : Addr) : Event :=
  ⟨"finalize-sale", [("collection", a.collection), ("token_id", tokStr a.tokenId), ("seller", a.seller), ("buyer", buyer),
    ("price", showNat price), ("asset_recipient", recipient)]⟩

/-- execute.rs 1232-1235 -/
def royaltyEvent (coll : Addr) (amount : Nat) (recipient : Addr) : Event :=
  ⟨"royalty-payout", [("collection", coll), ("amount", showCoin ⟨NATIVE, amount⟩), ("recipient", recipient)]⟩

/-- Attributes of a response: action and one more. -/
def actionEvent (action key : String) (v : Bytes) : Event := ⟨"wasm", [("action", txt action), (key, v)]⟩

/-- execute.rs 1186-1263 `payout`: messages and events added -/
def payoutE (ctx : Ctx) (s : State) (coll : Addr) (payment : Nat) (to : Addr) (finder : Option Addr) (fee : Option Nat) :
    Res (List Msg × List Event) :=
  mulFloor payment s.params.tradingFee >>= fun n =>
  orErr (ctx.q.collInfo coll) .std >>= fun info =>
  findersFee payment finder fee >>= fun ff =>
  match parseRoyalties info.royalty with
  | some roy =>
    mulFloor payment roy.share >>= fun amount =>
    u128 (n / 100 + ff + amount) >>= fun total =>
    ensure (total ≤ payment) .feesExceed >>= fun _ =>
    subChk ONE roy.share >>= fun rest =>
    mulFloor payment rest >>= fun x =>
    subChk x (n / 100) >>= fun y =>
    subChk y ff >>= fun z =>
    .ok (.fairBurn [⟨NATIVE, n / 100⟩] :: finderMsg finder ff ++
      [.send roy.recipient [⟨NATIVE, amount⟩], .send to [⟨NATIVE, z⟩]], [royaltyEvent coll amount roy.recipient])
  | none =>
    u128 (n / 100 + ff) >>= fun total =>
    ensure (total ≤ payment) .feesExceed >>= fun _ =>
    subChk payment (n / 100) >>= fun y =>
    subChk y ff >>= fun z =>
    .ok (.fairBurn [⟨NATIVE, n / 100⟩] :: finderMsg finder ff ++ [.send to [⟨NATIVE, z⟩]], [])

/-- execute.rs 1124-1171 `finalize_sale`: messages and events added -/
def finalizeSaleE (ctx : Ctx) (s : State) (a : Ask) (price : Nat) (buyer : Addr) (finder recipient : Option Addr) :
    Res (List Msg × List Event) :=
  payoutE ctx s a.collection price (a.fundsRecipient.getD a.seller) finder a.findersFee >>= fun pay =>
  .ok (pay.1 ++ [.nft a.collection (tokStr a.tokenId) (recipient.getD buyer)] ++ saleHook s a buyer,
    pay.2 ++ [saleEvent a price buyer (recipient.getD buyer)])

section
variable (p : Params)

/-- execute.rs 313-410 `execute_set_ask` -/
def executeSetAskE (ctx : Ctx) (sender : Addr) (funds : List Coin) (ty : SaleType) (coll : Addr) (tok : Nat) (price : Coin)
    (recipient reserveFor : Option Addr) (fee : Option Nat) (expires : Nat) (s : State) : OutE :=
  priceValidate s price >>= fun _ =>
  ensure (price.amount ≤ MAX_FIXED_PRICE_ASK_AMOUNT) .invalidPrice >>= fun _ =>
  onlyOwner ctx sender coll tok >>= fun _ =>
  onlyTradable ctx coll >>= fun _ =>
  ensure (ctx.q.approval coll (tokStr tok) = true) .std >>= fun _ =>
  s.params.askExpiry.isValid ctx.time expires >>= fun _ =>
  mayPay funds NATIVE >>= fun paid =>
  ensure (paid = s.params.listingFee) .wrongFee >>= fun _ =>
  feeOk s fee >>= fun _ =>
  ensure (∀ r, reserveFor = some r → r ≠ sender ∧ ty = .fixedPrice) .invalidReserve >>= fun _ =>
  let ask : Ask := ⟨ty, coll, tok, sender, price.amount, recipient, reserveFor, fee, expires, true⟩
  .ok ({ s with asks := s.asks.insert (coll, tok) ask },
    (if 0 < paid then [.fairBurn [⟨NATIVE, paid⟩]] else []) ++ askHook s ask .create, [setAskEvent ask price])

/-- execute.rs 413-433 `execute_remove_ask` -/
def executeRemoveAskE (ctx : Ctx) (sender : Addr) (funds : List Coin) (coll : Addr) (tok : Nat) (s : State) : OutE :=
  nonpayable funds >>= fun _ =>
  onlyOwner ctx sender coll tok >>= fun _ =>
  orErr (s.asks.get? (coll, tok)) .notFound >>= fun ask =>
  .ok ({ s with asks := s.asks.erase (coll, tok) }, askHook s ask .delete, [removeAskEvent coll tok])

/-- execute.rs 436-469 `execute_update_ask_price` -/
def executeUpdateAskPriceE (ctx : Ctx) (sender : Addr) (funds : List Coin) (coll : Addr) (tok : Nat) (price : Coin)
    (s : State) : OutE :=
  nonpayable funds >>= fun _ =>
  onlyOwner ctx sender coll tok >>= fun _ =>
  priceValidate s price >>= fun _ =>
  orErr (s.asks.get? (coll, tok)) .notFound >>= fun ask =>
  ensure (ask.isActive = true) .notActive >>= fun _ =>
  ensure (¬ ask.expiresAt ≤ ctx.time) .expired >>= fun _ =>
  let ask' : Ask := { ask with price := price.amount }
  .ok ({ s with asks := s.asks.insert (coll, tok) ask' }, askHook s ask' .update, [updateAskEvent coll tok price])

/-- execute.rs 472-632 `execute_set_bid`; the event of 623-629 is emitted whether or not the bid was stored -/
def executeSetBidE (ctx : Ctx) (sender : Addr) (funds : List Coin) (ty : SaleType) (coll : Addr) (tok expires : Nat)
    (finder : Option Addr) (fee : Option Nat) (recipient : Option Addr) (buyNow : Bool) (s : State) : OutE :=
  ensure (finder ≠ some sender) .invalidFinder >>= fun _ =>
  feeOk s fee >>= fun _ =>
  mustPay funds NATIVE >>= fun price =>
  ensure (s.params.minPrice ≤ price) .tooLow >>= fun _ =>
  s.params.bidExpiry.isValid ctx.time expires >>= fun _ =>
  let s1 := (refundOld coll tok sender s).1
  let msgs := (refundOld coll tok sender s).2
  let bid : Bid := ⟨coll, tok, sender, price, fee, expires⟩
  let saved : State × List Msg × List Event :=
    ((saveBid bid msgs s1).1, (saveBid bid msgs s1).2, [setBidEvent ty bid])
  match s1.asks.get? (coll, tok) with
  | some ask =>
    ensure (¬ ask.expiresAt ≤ ctx.time) .expired >>= fun _ =>
    ensure (ask.isActive = true) .notActive >>= fun _ =>
    ensure (∀ r, ask.reserveFor = some r → r = sender) .tokenReserved >>= fun _ =>
    match ask.saleType with
    | .fixedPrice =>
      if ask.price < price then .error .invalidPrice
      else if price < ask.price then .ok saved
      else
        let s2 : State := { s1 with asks := s1.asks.erase (coll, tok) }
        orErr (ctx.q.ownerOf ask.collection (tokStr ask.tokenId)) .notFound >>= fun owner =>
        ensure (ask.seller = owner) .notFound >>= fun _ =>
        finalizeSaleE ctx s2 ask price sender finder recipient >>= fun sale =>
        .ok (s2, msgs ++ sale.1, sale.2 ++ [setBidEvent ty bid])
    | .auction => if price < ask.price then .error .invalidPrice else .ok saved
  | none => if buyNow then .error .notFound else .ok saved

/-- execute.rs 635-667 `execute_remove_bid` -/
def executeRemoveBidE (sender : Addr) (funds : List Coin) (coll : Addr) (tok : Nat) (s : State) : OutE :=
  nonpayable funds >>= fun _ =>
  orErr (s.bids.get? (coll, tok, sender)) .notFound >>= fun bid =>
  .ok ({ s with bids := s.bids.erase (coll, tok, sender) },
    .send bid.bidder [⟨NATIVE, bid.price⟩] :: bidHook s bid .delete, [removeBidEvent coll tok sender])

/-- execute.rs 670-731 `execute_accept_bid` -/
def executeAcceptBidE (ctx : Ctx) (sender : Addr) (funds : List Coin) (coll : Addr) (tok : Nat) (bidder : Addr)
    (finder : Option Addr) (s : State) : OutE :=
  nonpayable funds >>= fun _ =>
  onlyOwner ctx sender coll tok >>= fun _ =>
  onlyTradable ctx coll >>= fun _ =>
  orErr (s.bids.get? (coll, tok, bidder)) .notFound >>= fun bid =>
  ensure (¬ bid.expiresAt ≤ ctx.time) .expired >>= fun _ =>
  let ask : Ask := ⟨.auction, coll, tok, sender, bid.price, some sender, none, bid.findersFee, bid.expiresAt, true⟩
  let s1 : State := { s with asks := s.asks.erase (coll, tok), bids := s.bids.erase (coll, tok, bidder) }
  finalizeSaleE ctx s1 ask bid.price bidder finder none >>= fun sale =>
  .ok (s1, sale.1, sale.2 ++ [acceptBidEvent coll tok bidder bid.price])

/-- execute.rs 733-766 `execute_reject_bid` -/
def executeRejectBidE (ctx : Ctx) (sender : Addr) (funds : List Coin) (coll : Addr) (tok : Nat) (bidder : Addr)
    (s : State) : OutE :=
  nonpayable funds >>= fun _ =>
  onlyOwner ctx sender coll tok >>= fun _ =>
  orErr (s.bids.get? (coll, tok, bidder)) .notFound >>= fun bid =>
  .ok ({ s with bids := s.bids.erase (coll, tok, bidder) },
    .send bidder [⟨NATIVE, bid.price⟩] :: bidHook s bid .delete, [rejectBidEvent coll tok bidder bid.price])

/-- execute.rs 769-823 `execute_set_collection_bid` -/
def executeSetCollectionBidE (ctx : Ctx) (sender : Addr) (funds : List Coin) (coll : Addr) (expires : Nat)
    (fee : Option Nat) (s : State) : OutE :=
  mustPay funds NATIVE >>= fun price =>
  ensure (s.params.minPrice ≤ price) .tooLow >>= fun _ =>
  s.params.bidExpiry.isValid ctx.time expires >>= fun _ =>
  feeOk s fee >>= fun _ =>
  let msgs : List Msg := match s.cbids.get? (coll, sender) with
    | some b => [.send b.bidder [⟨NATIVE, b.price⟩]]
    | none => []
  let bid : CBid := ⟨coll, sender, price, fee, expires⟩
  .ok ({ s with cbids := s.cbids.insert (coll, sender) bid }, msgs ++ cbidHook s bid .create, [setCBidEvent bid])

/-- execute.rs 826-857 `execute_remove_collection_bid` -/
def executeRemoveCollectionBidE (sender : Addr) (funds : List Coin) (coll : Addr) (s : State) : OutE :=
  nonpayable funds >>= fun _ =>
  orErr (s.cbids.get? (coll, sender)) .notFound >>= fun bid =>
  .ok ({ s with cbids := s.cbids.erase (coll, sender) },
    .send bid.bidder [⟨NATIVE, bid.price⟩] :: cbidHook s bid .delete, [removeCBidEvent coll sender])

/-- execute.rs 860-920 `execute_accept_collection_bid` -/
def executeAcceptCollectionBidE (ctx : Ctx) (sender : Addr) (funds : List Coin) (coll : Addr) (tok : Nat) (bidder : Addr)
    (finder : Option Addr) (s : State) : OutE :=
  nonpayable funds >>= fun _ =>
  onlyOwner ctx sender coll tok >>= fun _ =>
  onlyTradable ctx coll >>= fun _ =>
  orErr (s.cbids.get? (coll, bidder)) .notFound >>= fun bid =>
  ensure (¬ bid.expiresAt ≤ ctx.time) .expired >>= fun _ =>
  let ask : Ask := ⟨.auction, coll, tok, sender, bid.price, some sender, none, bid.findersFee, bid.expiresAt, true⟩
  let s1 : State := { s with cbids := s.cbids.erase (coll, bidder), asks := s.asks.erase (coll, tok) }
  finalizeSaleE ctx s1 ask bid.price bidder finder none >>= fun sale =>
  .ok (s1, sale.1, sale.2 ++ [acceptCBidEvent coll tok bidder sender bid.price])

/-- execute.rs 924-962 `execute_sync_ask` -/
def executeSyncAskE (ctx : Ctx) (sender : Addr) (funds : List Coin) (coll : Addr) (tok : Nat) (s : State) : OutE :=
  nonpayable funds >>= fun _ =>
  onlyOperator s sender >>= fun _ =>
  orErr (s.asks.get? (coll, tok)) .notFound >>= fun ask =>
  ensure (ctx.q.approval coll (tokStr tok) ≠ ask.isActive) .exists_ >>= fun _ =>
  let ask' : Ask := { ask with isActive := ctx.q.approval coll (tokStr tok) }
  .ok ({ s with asks := s.asks.insert (coll, tok) ask' }, askHook s ask' .update, [syncEvent coll tok ask'.isActive])

/-- execute.rs 966-1019 `execute_remove_stale_ask` -/
def executeRemoveStaleAskE (ctx : Ctx) (sender : Addr) (funds : List Coin) (coll : Addr) (tok : Nat) (s : State) : OutE :=
  nonpayable funds >>= fun _ =>
  onlyOperator s sender >>= fun _ =>
  orErr (s.asks.get? (coll, tok)) .notFound >>= fun ask =>
  ensure (¬ ((ctx.q.ownerOf coll (tokStr tok)).isSome = true ∧ ctx.q.approval coll (tokStr tok) = true ∧
    ¬ ask.expiresAt ≤ ctx.time)) .exists_ >>= fun _ =>
  .ok ({ s with asks := s.asks.erase (coll, tok) }, askHook s ask .delete,
    [staleAskEvent coll tok sender (decide (ask.expiresAt ≤ ctx.time)) (ctx.q.ownerOf coll (tokStr tok)).isSome
      (ctx.q.approval coll (tokStr tok))])

/-- execute.rs 1023-1071 `execute_remove_stale_bid` -/
def executeRemoveStaleBidE (ctx : Ctx) (sender : Addr) (funds : List Coin) (coll : Addr) (tok : Nat) (bidder : Addr)
    (s : State) : OutE :=
  nonpayable funds >>= fun _ =>
  onlyOperator s sender >>= fun _ =>
  orErr (s.bids.get? (coll, tok, bidder)) .notFound >>= fun bid =>
  checkStale ctx.time bid.expiresAt s.params.staleBidDuration >>= fun _ =>
  mulFloor bid.price s.params.bidRemovalReward >>= fun n =>
  subChk bid.price (n / 100) >>= fun refund =>
  .ok ({ s with bids := s.bids.erase (coll, tok, bidder) },
    .send bid.bidder [⟨NATIVE, refund⟩] :: .send sender [⟨NATIVE, n / 100⟩] :: bidHook s bid .delete,
    [staleBidEvent coll tok bidder sender (n / 100)])

/-- execute.rs 1075-1121 `execute_remove_stale_collection_bid` -/
def executeRemoveStaleCollectionBidE (ctx : Ctx) (sender : Addr) (funds : List Coin) (coll bidder : Addr) (s : State) :
    OutE :=
  nonpayable funds >>= fun _ =>
  onlyOperator s sender >>= fun _ =>
  orErr (s.cbids.get? (coll, bidder)) .notFound >>= fun bid =>
  checkStale ctx.time bid.expiresAt s.params.staleBidDuration >>= fun _ =>
  mulFloor bid.price s.params.bidRemovalReward >>= fun n =>
  subChk bid.price (n / 100) >>= fun refund =>
  .ok ({ s with cbids := s.cbids.erase (coll, bidder) },
    .send bid.bidder [⟨NATIVE, refund⟩] :: .send sender [⟨NATIVE, n / 100⟩] :: cbidHook s bid .delete,
    [staleCBidEvent coll bidder sender (n / 100)])

/-- execute.rs 107-310 `execute`; the sale type of a purchase is `FixedPrice` (176, 198) -/
def executeE (ctx : Ctx) (sender : Addr) (funds : List Coin) (m : Exec) (s : State) : OutE :=
  match m with
  | .setAsk ty coll tok price recipient reserveFor fee expires =>
    addrValidate p coll >>= fun coll => maybeAddr p recipient >>= fun recipient => maybeAddr p reserveFor >>= fun reserveFor =>
      executeSetAskE ctx sender funds ty coll tok price recipient reserveFor fee expires s
  | .removeAsk coll tok => addrValidate p coll >>= fun coll => executeRemoveAskE ctx sender funds coll tok s
  | .updateAskPrice coll tok price =>
    addrValidate p coll >>= fun coll => executeUpdateAskPriceE ctx sender funds coll tok price s
  | .setBid coll tok expires ty finder fee =>
    addrValidate p coll >>= fun coll => maybeAddr p finder >>= fun finder =>
      executeSetBidE ctx sender funds ty coll tok expires finder fee none false s
  | .buyNow coll tok expires finder fee =>
    addrValidate p coll >>= fun coll => maybeAddr p finder >>= fun finder =>
      executeSetBidE ctx sender funds .fixedPrice coll tok expires finder fee none true s
  | .buyFor coll tok expires finder fee recipient =>
    addrValidate p coll >>= fun coll => maybeAddr p finder >>= fun finder => addrValidate p recipient >>= fun recipient =>
      executeSetBidE ctx sender funds .fixedPrice coll tok expires finder fee (some recipient) true s
  | .removeBid coll tok => addrValidate p coll >>= fun coll => executeRemoveBidE sender funds coll tok s
  | .acceptBid coll tok bidder finder =>
    addrValidate p coll >>= fun coll => addrValidate p bidder >>= fun bidder => maybeAddr p finder >>= fun finder =>
      executeAcceptBidE ctx sender funds coll tok bidder finder s
  | .rejectBid coll tok bidder =>
    addrValidate p coll >>= fun coll => addrValidate p bidder >>= fun bidder => executeRejectBidE ctx sender funds coll tok bidder s
  | .setCollectionBid coll expires fee =>
    addrValidate p coll >>= fun coll => executeSetCollectionBidE ctx sender funds coll expires fee s
  | .removeCollectionBid coll => addrValidate p coll >>= fun coll => executeRemoveCollectionBidE sender funds coll s
  | .acceptCollectionBid coll tok bidder finder =>
    addrValidate p coll >>= fun coll => addrValidate p bidder >>= fun bidder => maybeAddr p finder >>= fun finder =>
      executeAcceptCollectionBidE ctx sender funds coll tok bidder finder s
  | .syncAsk coll tok => addrValidate p coll >>= fun coll => executeSyncAskE ctx sender funds coll tok s
  | .removeStaleAsk coll tok => addrValidate p coll >>= fun coll => executeRemoveStaleAskE ctx sender funds coll tok s
  | .removeStaleBid coll tok bidder =>
    addrValidate p coll >>= fun coll => addrValidate p bidder >>= fun bidder =>
      executeRemoveStaleBidE ctx sender funds coll tok bidder s
  | .removeStaleCollectionBid coll bidder =>
    addrValidate p coll >>= fun coll => addrValidate p bidder >>= fun bidder =>
      executeRemoveStaleCollectionBidE ctx sender funds coll bidder s

/-- sudo.rs 135, 146-149, 160-163, 169-217: attributes of the responses -/
def sudoEvent : Sudo → Event
  | .updateParams _ => ⟨"wasm", [("action", txt "update_params")]⟩
  | .addOperator a => actionEvent "add_operator" "operator" a
  | .removeOperator a => actionEvent "remove_operator" "operator" a
  | .addSaleHook a => actionEvent "add_sale_hook" "hook" a
  | .addAskHook a => actionEvent "add_ask_hook" "hook" a
  | .addBidHook a => actionEvent "add_bid_hook" "hook" a
  | .removeSaleHook a => actionEvent "remove_sale_hook" "hook" a
  | .removeAskHook a => actionEvent "remove_ask_hook" "hook" a
  | .removeBidHook a => actionEvent "remove_bid_hook" "hook" a

/-- sudo.rs 28-218 `sudo` -/
def sudoE (ctx : Ctx) (m : Sudo) (s : State) : OutE :=
  sudo p ctx m s >>= fun r => .ok (r.1, r.2, [sudoEvent m])

/-- execute.rs 1342-1347 `HookReply`; 1399, 1419, 1433, 1453: reply id of the message to a hook -/
def hookReplyId : HookKind → Nat
  | .ask => 1
  | .sale => 2
  | .bid => 3
  | .collectionBid => 4

/-- execute.rs 1349-1389 `From<u64> for HookReply`, `reply`: called when a hook failed with `error`; the storage is not changed -/
def replyE (id : Nat) (error : Bytes) : Res (List Event) :=
  match id with
  | 1 => .ok [actionEvent "ask-hook-failed" "error" error]
  | 2 => .ok [actionEvent "sale-hook-failed" "error" error]
  | 3 => .ok [actionEvent "bid-hook-failed" "error" error]
  | 4 => .ok [actionEvent "collection-bid-hook-failed" "error" error]
  | _ => .error .panic

end
end Verif.V1

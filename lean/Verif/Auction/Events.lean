/-
Events of contracts/reserve-auction/src. The handlers are those of `Verif.Auction.Model` with the events of the
response added; `Verif.Auction.EventLemmas` proves that leaving the events out gives the handlers of the model.
Line numbers refer to files in that directory.

Attributes added to the response itself appear on the chain as an event of type `wasm`; they are modelled as such an
event, which comes before the others. `payout_nft_sale_fees` and `append_fair_burn_msg` of sg-marketplace-common also
take the response; events they may add are not modelled.
-/
import Verif.Base.EventNum
import Verif.Auction.Model

namespace Verif.Auction
open Verif

/-- Result of a handler with the events of the response. -/
abbrev OutE := Res (State × List Msg × List Event)

/-- execute.rs 165-175 -/
def createEvent (a : Auction) : Event :=
  ⟨"create-auction", [("collection", a.collection), ("token_id", a.tokenId), ("seller", a.seller),
    ("reserve_price", showCoin a.reserve)] ++ optAttr "seller_funds_recipient" a.recipient⟩

/-- execute.rs 216-219 -/
def reserveEvent (a : Auction) : Event :=
  ⟨"update-reserve-price", [("token_id", a.tokenId), ("collection", a.collection), ("reserve_price", showCoin a.reserve)]⟩

/-- execute.rs 248-250 -/
def cancelEvent (a : Auction) : Event := ⟨"cancel-auction", [("collection", a.collection), ("token_id", a.tokenId)]⟩

/-- execute.rs 300-305 and the attributes `more` added in 313-316 or 335-343 -/
def bidEvent (a : Auction) (h : HighBid) (more : List Attr) : Event :=
  ⟨"place-bid", [("collection", a.collection), ("token_id", a.tokenId), ("seller", a.seller), ("bidder", h.bidder),
    ("bid_amount", showCoin h.coin)] ++ more⟩

/-- helpers.rs 72-77 -/
def postponeEvent (a : Auction) (e : Nat) : Event :=
  ⟨"postpone-auction", [("collection", a.collection), ("token_id", a.tokenId), ("auction_end_time", showTime e)]⟩

/-- helpers.rs 111-119 -/
def settleEvent (a : Auction) (h : HighBid) : Event :=
  ⟨"settle-auction", [("collection", a.collection), ("token_id", a.tokenId), ("seller", a.seller), ("bidder", h.bidder),
    ("bid_amount", showNat h.coin.amount), ("bid_denom", h.coin.denom)]⟩

/-- sudo.rs 226-230, instantiate.rs 83-87 -/
def setMinEvent (c : Coin) : Event := ⟨"set-min-reserve-price", [("denom", c.denom), ("amount", showNat c.amount)]⟩

/-- sudo.rs 246-247 -/
def unsetMinEvent (d : Denom) : Event := ⟨"unset-min-reserve-price", [("denom", d)]⟩

/-- sudo.rs 143-202 (`addr_validate` returns the address it is given) -/
def paramsEvent (u : Update) : Event :=
  ⟨"sudo-update-params", optAttr "fair_burn" u.fairBurn ++
    optAttr "trading_fee_percent" (u.tradingFee.map showDec) ++
    optAttr "min_bid_increment_percent" (u.minBidIncrement.map showDec) ++
    optAttr "min_duration" (u.minDuration.map showNat) ++
    optAttr "extend_duration" (u.extendDuration.map showNat) ++
    optAttr "create_auction_fee" (u.createFee.map showCoin) ++
    optAttr "max_auctions_to_settle_per_block" (u.maxSettle.map showNat) ++
    optAttr "halt_duration_threshold" (u.haltThreshold.map showNat) ++
    optAttr "halt_buffer_duration" (u.haltBuffer.map showNat) ++
    optAttr "halt_postpone_duration" (u.haltPostpone.map showNat)⟩

/-- instantiate.rs 39-70: the attributes of the response -/
def initEvent (name version : Bytes) (c : Config) : Event :=
  ⟨"wasm", [("action", txt "instantiate"), ("contract_name", name), ("contract_version", version),
    ("fair_burn", c.fairBurn), ("trading_fee_percent", showDec c.tradingFee),
    ("min_bid_increment_percent", showDec c.minBidIncrement), ("min_duration", showNat c.minDuration),
    ("extend_duration", showNat c.extendDuration), ("create_auction_fee", showCoin c.createFee),
    ("max_auctions_to_settle_per_block", showNat c.maxSettle), ("halt_duration_threshold", showNat c.haltThreshold),
    ("halt_buffer_duration", showNat c.haltBuffer), ("halt_postpone_duration", showNat c.haltPostpone)]⟩

/-- sudo.rs 66-69: attributes of the response, and the event -/
def haltEvents (w : HaltWindow) : List Event :=
  [⟨"wasm", [("start_time", showNat w.start), ("end_time", showNat w.stop)]⟩, ⟨"halt-detected", []⟩]

/-- sudo.rs 103-104 -/
def endBlockEvent : Event := ⟨"sudo-end-block", [("action", txt "settle-auctions")]⟩

section
variable (p : Params)

/-- helpers.rs 48-122 `settle_auction` (`msgs` and `evs` are already in the response) -/
def settleAuctionE (ctx : Ctx) (a : Auction) (c : Config) (ws : List HaltWindow) (msgs : List Msg) (evs : List Event)
    (s : State) : OutE :=
  match a.endTime with
  | none => .error .notEnded
  | some e =>
    ensure (e ≤ ctx.time) .notEnded >>= fun _ =>
    if inHalt ws (secs e) then
      plusSeconds ctx.time c.haltPostpone >>= fun e' =>
      .ok ({ s with auctions := s.auctions.insert a.key { a with endTime := some e' } }, msgs, evs ++ [postponeEvent a e'])
    else
      orErr a.highBid .panic >>= fun h =>
      p.lib.royalties ctx.q a.collection >>= fun roy =>
      p.lib.payout h.coin a.fundsRecipient c.fairBurn c.tradingFee roy >>= fun pay =>
      .ok ({ s with auctions := s.auctions.erase a.key }, msgs ++ pay ++ [.nft a.collection a.tokenId h.bidder],
        evs ++ [settleEvent a h])

/-- execute.rs 83-184 `execute_create_auction` -/
def executeCreateE (ctx : Ctx) (sender : Addr) (funds : List Coin) (coll : Addr) (tok : Bytes) (duration : Nat)
    (reserve : Coin) (recipient : Option Addr) (s : State) : OutE :=
  p.lib.onlyOwner ctx sender coll tok >>= fun _ =>
  p.lib.hasApproval ctx coll tok >>= fun _ =>
  ensure (s.auctions.get? (coll, tok) = none) .exists_ >>= fun _ =>
  p.lib.onlyTradable ctx coll >>= fun _ =>
  validateReserve s reserve >>= fun _ =>
  ensure (s.config.minDuration ≤ duration ∧ duration ≤ s.config.maxDuration) .invalidInput >>= fun _ =>
  (if s.config.createFee.amount = 0 then nonpayable funds >>= fun _ => .ok []
   else ensure (hasCoins funds s.config.createFee = true) .wrongFee >>= fun _ =>
     .ok [.fairBurn [s.config.createFee]]) >>= fun fee =>
  let a : Auction := ⟨coll, tok, sender, reserve, duration, none, recipient, none, none⟩
  .ok ({ s with auctions := s.auctions.insert (coll, tok) a }, fee ++ [.nft coll tok ctx.self], [createEvent a])

/-- execute.rs 186-222 `execute_update_reserve_price` -/
def executeUpdateReserveE (sender : Addr) (funds : List Coin) (coll : Addr) (tok : Bytes) (reserve : Coin) (s : State) :
    OutE :=
  nonpayable funds >>= fun _ =>
  orErr (s.auctions.get? (coll, tok)) .notFound >>= fun a =>
  ensure (a.seller = sender) .unauthorized >>= fun _ =>
  ensure (a.firstBid = none) .started >>= fun _ =>
  validateReserve s reserve >>= fun _ =>
  .ok ({ s with auctions := s.auctions.insert a.key { a with reserve := reserve } }, [],
    [reserveEvent { a with reserve := reserve }])

/-- execute.rs 224-257 `execute_cancel_auction` -/
def executeCancelE (sender : Addr) (funds : List Coin) (coll : Addr) (tok : Bytes) (s : State) : OutE :=
  nonpayable funds >>= fun _ =>
  orErr (s.auctions.get? (coll, tok)) .notFound >>= fun a =>
  ensure (a.seller = sender) .unauthorized >>= fun _ =>
  ensure (a.firstBid = none) .started >>= fun _ =>
  .ok ({ s with auctions := s.auctions.erase a.key }, [.nft coll tok a.seller], [cancelEvent a])

/-- execute.rs 299-345: first bid time, end time, messages and further attributes after the bid -/
def bidTimesE (ctx : Ctx) (a : Auction) (c : Config) : Res (Nat × Nat × List Msg × List Attr) :=
  match a.firstBid with
  | none => plusSeconds ctx.time a.duration >>= fun e =>
    .ok (ctx.time, e, [], [("first_bid", txt "true"), ("auction_end_time", showTime e)])
  | some f =>
    orErr a.highBid .panic >>= fun h =>
    ensure (h.coin.amount ≠ 0) .zeroSend >>= fun _ =>
    orErr a.endTime .panic >>= fun e =>
    subChk (secs e) (secs ctx.time) >>= fun left =>
    (if left < c.extendDuration then plusSeconds ctx.time c.extendDuration else .ok e) >>= fun e' =>
    .ok (f, e', [.send h.bidder [h.coin]], [("first_bid", txt "false"), ("auction_end_time", showTime e'),
      ("previous_bidder", h.bidder), ("previous_bid_amount", showCoin h.coin)])

/-- execute.rs 259-357 `execute_place_bid` -/
def executeBidE (ctx : Ctx) (sender : Addr) (funds : List Coin) (coll : Addr) (tok : Bytes) (s : State) : OutE :=
  orErr (s.auctions.get? (coll, tok)) .notFound >>= fun a =>
  mustPay funds a.reserve.denom >>= fun amount =>
  ensure (a.seller ≠ sender) .sellerBid >>= fun _ =>
  a.minBid s.config.minBidIncrement >>= fun m =>
  ensure (hasCoins funds ⟨a.reserve.denom, m⟩ = true) .tooLow >>= fun _ =>
  ensure (∀ e, a.endTime = some e → secs ctx.time < secs e) .ended >>= fun _ =>
  bidTimesE ctx a s.config >>= fun r =>
  let h : HighBid := ⟨⟨a.reserve.denom, amount⟩, sender⟩
  let a' : Auction := { a with firstBid := some r.1, endTime := some r.2.1, highBid := some h }
  .ok ({ s with auctions := s.auctions.insert a.key a' }, r.2.2.1, [bidEvent a h r.2.2.2])

/-- execute.rs 359-374 `execute_settle_auction` -/
def executeSettleE (ctx : Ctx) (funds : List Coin) (coll : Addr) (tok : Bytes) (s : State) : OutE :=
  nonpayable funds >>= fun _ =>
  orErr (s.auctions.get? (coll, tok)) .notFound >>= fun a =>
  settleAuctionE p ctx a s.config s.windows [] [] s

/-- execute.rs 24-80 `execute` -/
def executeE (ctx : Ctx) (sender : Addr) (funds : List Coin) (m : Exec) (s : State) : OutE :=
  match m with
  | .create coll tok reserve duration recipient =>
    addrValidate p coll >>= fun coll => maybeAddr p recipient >>= fun r =>
      executeCreateE p ctx sender funds coll tok duration reserve r s
  | .updateReserve coll tok reserve =>
    addrValidate p coll >>= fun coll => executeUpdateReserveE sender funds coll tok reserve s
  | .cancel coll tok => addrValidate p coll >>= fun coll => executeCancelE sender funds coll tok s
  | .bid coll tok => addrValidate p coll >>= fun coll => executeBidE ctx sender funds coll tok s
  | .settle coll tok => addrValidate p coll >>= fun coll => executeSettleE p ctx funds coll tok s

/-- sudo.rs 50-77 `sudo_begin_block` -/
def beginBlockE (ctx : Ctx) (s : State) : OutE :=
  subChk (secs ctx.time) s.prevBlock >>= fun since =>
  (if 0 < s.prevBlock ∧ s.config.haltThreshold ≤ since then
    u64 (secs ctx.time + s.config.haltBuffer) >>= fun stop =>
      .ok (s.windows ++ [⟨s.prevBlock, stop⟩], haltEvents ⟨s.prevBlock, stop⟩)
   else .ok (s.windows, [])) >>= fun ws =>
  .ok ({ s with windows := ws.1, prevBlock := secs ctx.time }, [], ws.2)

/-- sudo.rs 106-115 -/
def settleAllE (ctx : Ctx) (c : Config) (ws : List HaltWindow) : List Auction → List Msg → List Event → State → OutE
  | [], msgs, evs, s => .ok (s, msgs, evs)
  | a :: as, msgs, evs, s =>
    settleAuctionE p ctx a c ws msgs evs s >>= fun r => settleAllE ctx c ws as r.2.1 r.2.2 r.1

/-- sudo.rs 79-124 `sudo_end_block` -/
def endBlockE (ctx : Ctx) (s : State) : OutE :=
  (match (dueAuctions ctx s).head? with
    | none => .ok none
    | some a => orErr a.endTime .panic >>= fun e => .ok (some e)) >>= fun earliest =>
  settleAllE p ctx s.config s.windows (dueAuctions ctx s) [] [endBlockEvent] s >>= fun r =>
  .ok ({ r.1 with windows := dropStale s.windows earliest }, r.2.1, r.2.2)

/-- sudo.rs 14-48 `sudo`; the handlers not repeated here emit one event (127-207) or one event for each entry of the
list (209-233, 235-250) -/
def sudoE (ctx : Ctx) (m : Sudo) (s : State) : OutE :=
  match m with
  | .beginBlock => beginBlockE ctx s
  | .endBlock => endBlockE p ctx s
  | .updateParams u => updateParams p u s >>= fun r => .ok (r.1, r.2, [paramsEvent u])
  | .setMinReserve cs =>
    setMinReserve cs s.minReserve >>= fun m => .ok ({ s with minReserve := m }, [], cs.map setMinEvent)
  | .unsetMinReserve ds =>
    unsetMinReserve ds s.minReserve >>= fun m => .ok ({ s with minReserve := m }, [], ds.map unsetMinEvent)

/-- instantiate.rs 16-99 `instantiate` -/
def instantiateE (name version : Bytes) (c : Config) (mins : List Coin) : Res (State × List Event) :=
  instantiate p c mins >>= fun s => .ok (s, initEvent name version c :: mins.map setMinEvent)

end
end Verif.Auction

/-
contracts/reserve-auction/src — execute, sudo, instantiate and queries.
Line numbers refer to files in that directory.

The contract uses sg-marketplace-common 1.1.0 from crates.io, whose source is not in /repo. Its functions are
parameters (`Lib`); what is assumed about them is `LibOk` in Spec.lean.
-/
import Verif.Base.AMap
import Verif.Base.Range
import Verif.Base.Chain

namespace Verif.Auction
open Verif

/-- state.rs 9-22 `Config` (percentages are Decimal atomics) -/
structure Config where
  fairBurn : Addr
  tradingFee : Nat
  minBidIncrement : Nat
  minDuration : Nat
  maxDuration : Nat
  extendDuration : Nat
  createFee : Coin
  maxSettle : Nat
  haltThreshold : Nat
  haltBuffer : Nat
  haltPostpone : Nat
  deriving DecidableEq, Repr

/-- state.rs 62-66 `HighBid` -/
structure HighBid where
  coin : Coin
  bidder : Addr
  deriving DecidableEq, Repr

/-- state.rs 68-79 `Auction`; times in nanoseconds, duration in seconds -/
structure Auction where
  collection : Addr
  tokenId : Bytes
  seller : Addr
  reserve : Coin
  duration : Nat
  endTime : Option Nat
  recipient : Option Addr
  highBid : Option HighBid
  firstBid : Option Nat
  deriving DecidableEq, Repr

/-- state.rs 122-126 `HaltWindow` (seconds) -/
structure HaltWindow where
  start : Nat
  stop : Nat
  deriving DecidableEq, Repr

/-- state.rs 102 `AuctionKey` -/
abbrev Key := Addr × Bytes

/-- Contract storage: state.rs 56 `CONFIG`, 60 `MIN_RESERVE_PRICES`, 110-120 `auctions`, 128-134 `HALT_MANAGER`. -/
structure State where
  config : Config
  minReserve : AMap Denom Nat
  auctions : AMap Key Auction
  prevBlock : Nat
  windows : List HaltWindow

/-- Functions of sg-marketplace-common 1.1.0. -/
structure Lib where
  onlyOwner : Ctx → Addr → Addr → Bytes → Res Unit
  hasApproval : Ctx → Addr → Bytes → Res Unit
  onlyTradable : Ctx → Addr → Res Unit
  /-- `load_collection_royalties` -/
  royalties : Queries → Addr → Res (Option Royalty)
  /-- `payout_nft_sale_fees` with sale coin, seller, fair burn address, trading fee and royalty: messages added -/
  payout : Coin → Addr → Addr → Nat → Option Royalty → Res (List Msg)

/-- Fixed for a deployment: address validation and the library. -/
structure Params where
  valid : Bytes → Bool
  lib : Lib

/-- Nanoseconds per second. -/
def NS : Nat := 1000000000

/-- `Timestamp::seconds` -/
def secs (t : Nat) : Nat := t / NS

/-- `Timestamp::plus_seconds`: panics on u64 overflow -/
def plusSeconds (t n : Nat) : Res Nat := u64 (t + n * NS)

/-- msg.rs 42-68 `ExecuteMsg` -/
inductive Exec where
  | create (coll tok : Bytes) (reserve : Coin) (duration : Nat) (recipient : Option Bytes)
  | updateReserve (coll tok : Bytes) (reserve : Coin)
  | cancel (coll tok : Bytes)
  | bid (coll tok : Bytes)
  | settle (coll tok : Bytes)
  deriving DecidableEq, Repr

/-- msg.rs 116-127, the optional fields of `SudoMsg::UpdateParams` -/
structure Update where
  fairBurn : Option Bytes := none
  tradingFee : Option Nat := none
  minBidIncrement : Option Nat := none
  minDuration : Option Nat := none
  extendDuration : Option Nat := none
  createFee : Option Coin := none
  maxSettle : Option Nat := none
  haltThreshold : Option Nat := none
  haltBuffer : Option Nat := none
  haltPostpone : Option Nat := none
  deriving DecidableEq, Repr

/-- msg.rs 111-134 `SudoMsg` -/
inductive Sudo where
  | beginBlock
  | endBlock
  | updateParams (u : Update)
  | setMinReserve (cs : List Coin)
  | unsetMinReserve (ds : List Denom)
  deriving DecidableEq, Repr

/-- Result of a handler. -/
abbrev Out := Res (State × List Msg)

/-- `api.addr_validate` -/
def addrValidate (p : Params) (a : Bytes) : Res Addr := if p.valid a then .ok a else .error .std

/-- `cw_utils::maybe_addr` -/
def maybeAddr (p : Params) (a : Option Bytes) : Res (Option Addr) :=
  match a with
  | none => .ok none
  | some x => addrValidate p x >>= fun y => .ok (some y)

/-- state.rs 32-54 `Config::validate` -/
def Config.validate (c : Config) : Res Unit :=
  ensure (c.minBidIncrement ≠ 0) .invalidConfig >>= fun _ =>
  ensure (c.minBidIncrement < ONE) .invalidConfig >>= fun _ =>
  ensure (0 < c.minDuration) .invalidConfig >>= fun _ =>
  ensure (0 < c.extendDuration) .invalidConfig

/-- state.rs 86-88 `funds_recipient` -/
def Auction.fundsRecipient (a : Auction) : Addr := a.recipient.getD a.seller

/-- state.rs 90-99 `min_bid_coin` (amount; the denom is the reserve price's) -/
def Auction.minBid (a : Auction) (incr : Nat) : Res Nat :=
  match a.highBid with
  | some h => u128 (ONE + incr) >>= fun f => mulCeil h.coin.amount f
  | none => .ok a.reserve.amount

def Auction.key (a : Auction) : Key := (a.collection, a.tokenId)

/-- state.rs 114: the `end_time` index value -/
def Auction.endKey (a : Auction) : Nat :=
  match a.endTime with
  | some t => secs t
  | none => U64MAX

/-- state.rs 137-144 `is_within_halt_window` -/
def inHalt (ws : List HaltWindow) (t : Nat) : Bool :=
  ws.any (fun w => decide (w.start < t ∧ t < w.stop))

/-- state.rs 146-160 `find_stale_halt_info`: the remaining windows -/
def dropStale (ws : List HaltWindow) (earliest : Option Nat) : List HaltWindow :=
  match ws with
  | [] => []
  | w :: rest =>
    match earliest with
    | none => rest
    | some t => if w.stop < secs t then rest else w :: rest

/-- helpers.rs 24-46 `validate_reserve_price` -/
def validateReserve (s : State) (c : Coin) : Res Unit :=
  match s.minReserve.get? c.denom with
  | none => .error .invalidInput
  | some m => ensure (m ≤ c.amount) .invalidReserve

section
variable (p : Params)

/-- helpers.rs 48-122 `settle_auction` (`msgs` are the messages already in the response) -/
def settleAuction (ctx : Ctx) (a : Auction) (c : Config) (ws : List HaltWindow) (msgs : List Msg) (s : State) : Out :=
  match a.endTime with
  | none => .error .notEnded
  | some e =>
    ensure (e ≤ ctx.time) .notEnded >>= fun _ =>
    if inHalt ws (secs e) then
      plusSeconds ctx.time c.haltPostpone >>= fun e' =>
      .ok ({ s with auctions := s.auctions.insert a.key { a with endTime := some e' } }, msgs)
    else
      -- `auction.high_bid.as_ref().unwrap()`
      orErr a.highBid .panic >>= fun h =>
      p.lib.royalties ctx.q a.collection >>= fun roy =>
      p.lib.payout h.coin a.fundsRecipient c.fairBurn c.tradingFee roy >>= fun pay =>
      .ok ({ s with auctions := s.auctions.erase a.key }, msgs ++ pay ++ [.nft a.collection a.tokenId h.bidder])

/-- execute.rs 83-184 `execute_create_auction` -/
def executeCreate (ctx : Ctx) (sender : Addr) (funds : List Coin) (coll : Addr) (tok : Bytes) (duration : Nat)
    (reserve : Coin) (recipient : Option Addr) (s : State) : Out :=
  p.lib.onlyOwner ctx sender coll tok >>= fun _ =>
  p.lib.hasApproval ctx coll tok >>= fun _ =>
  -- helpers.rs 11-22 `only_no_auction`
  ensure (s.auctions.get? (coll, tok) = none) .exists_ >>= fun _ =>
  p.lib.onlyTradable ctx coll >>= fun _ =>
  validateReserve s reserve >>= fun _ =>
  ensure (s.config.minDuration ≤ duration ∧ duration ≤ s.config.maxDuration) .invalidInput >>= fun _ =>
  (if s.config.createFee.amount = 0 then nonpayable funds >>= fun _ => .ok []
   else ensure (hasCoins funds s.config.createFee = true) .wrongFee >>= fun _ =>
     .ok [.fairBurn [s.config.createFee]]) >>= fun fee =>
  .ok ({ s with auctions := s.auctions.insert (coll, tok) ⟨coll, tok, sender, reserve, duration, none, recipient, none, none⟩ },
    fee ++ [.nft coll tok ctx.self])

/-- execute.rs 186-222 `execute_update_reserve_price` -/
def executeUpdateReserve (sender : Addr) (funds : List Coin) (coll : Addr) (tok : Bytes) (reserve : Coin) (s : State) : Out :=
  nonpayable funds >>= fun _ =>
  orErr (s.auctions.get? (coll, tok)) .notFound >>= fun a =>
  ensure (a.seller = sender) .unauthorized >>= fun _ =>
  ensure (a.firstBid = none) .started >>= fun _ =>
  validateReserve s reserve >>= fun _ =>
  .ok ({ s with auctions := s.auctions.insert a.key { a with reserve := reserve } }, [])

/-- execute.rs 224-257 `execute_cancel_auction` -/
def executeCancel (sender : Addr) (funds : List Coin) (coll : Addr) (tok : Bytes) (s : State) : Out :=
  nonpayable funds >>= fun _ =>
  orErr (s.auctions.get? (coll, tok)) .notFound >>= fun a =>
  ensure (a.seller = sender) .unauthorized >>= fun _ =>
  ensure (a.firstBid = none) .started >>= fun _ =>
  .ok ({ s with auctions := s.auctions.erase a.key }, [.nft coll tok a.seller])

/-- execute.rs 299-345: first bid time, end time and messages after the bid -/
def bidTimes (ctx : Ctx) (a : Auction) (c : Config) : Res (Nat × Nat × List Msg) :=
  match a.firstBid with
  | none => plusSeconds ctx.time a.duration >>= fun e => .ok (ctx.time, e, [])
  | some f =>
    -- `auction.high_bid.unwrap()`
    orErr a.highBid .panic >>= fun h =>
    -- `checked_transfer_coin`
    ensure (h.coin.amount ≠ 0) .zeroSend >>= fun _ =>
    -- `auction.end_time.unwrap()`
    orErr a.endTime .panic >>= fun e =>
    subChk (secs e) (secs ctx.time) >>= fun left =>
    (if left < c.extendDuration then plusSeconds ctx.time c.extendDuration else .ok e) >>= fun e' =>
    .ok (f, e', [.send h.bidder [h.coin]])

/-- execute.rs 259-357 `execute_place_bid` -/
def executeBid (ctx : Ctx) (sender : Addr) (funds : List Coin) (coll : Addr) (tok : Bytes) (s : State) : Out :=
  orErr (s.auctions.get? (coll, tok)) .notFound >>= fun a =>
  mustPay funds a.reserve.denom >>= fun amount =>
  ensure (a.seller ≠ sender) .sellerBid >>= fun _ =>
  a.minBid s.config.minBidIncrement >>= fun m =>
  ensure (hasCoins funds ⟨a.reserve.denom, m⟩ = true) .tooLow >>= fun _ =>
  ensure (∀ e, a.endTime = some e → secs ctx.time < secs e) .ended >>= fun _ =>
  bidTimes ctx a s.config >>= fun r =>
  let a' : Auction := { a with
    firstBid := some r.1, endTime := some r.2.1, highBid := some ⟨⟨a.reserve.denom, amount⟩, sender⟩ }
  .ok ({ s with auctions := s.auctions.insert a.key a' }, r.2.2)

/-- execute.rs 359-374 `execute_settle_auction` -/
def executeSettle (ctx : Ctx) (funds : List Coin) (coll : Addr) (tok : Bytes) (s : State) : Out :=
  nonpayable funds >>= fun _ =>
  orErr (s.auctions.get? (coll, tok)) .notFound >>= fun a =>
  settleAuction p ctx a s.config s.windows [] s

/-- execute.rs 24-80 `execute` -/
def execute (ctx : Ctx) (sender : Addr) (funds : List Coin) (m : Exec) (s : State) : Out :=
  match m with
  | .create coll tok reserve duration recipient =>
    addrValidate p coll >>= fun coll => maybeAddr p recipient >>= fun r =>
      executeCreate p ctx sender funds coll tok duration reserve r s
  | .updateReserve coll tok reserve =>
    addrValidate p coll >>= fun coll => executeUpdateReserve sender funds coll tok reserve s
  | .cancel coll tok => addrValidate p coll >>= fun coll => executeCancel sender funds coll tok s
  | .bid coll tok => addrValidate p coll >>= fun coll => executeBid ctx sender funds coll tok s
  | .settle coll tok => addrValidate p coll >>= fun coll => executeSettle p ctx funds coll tok s

/-- sudo.rs 50-77 `sudo_begin_block` -/
def beginBlock (ctx : Ctx) (s : State) : Out :=
  subChk (secs ctx.time) s.prevBlock >>= fun since =>
  (if 0 < s.prevBlock ∧ s.config.haltThreshold ≤ since then
    u64 (secs ctx.time + s.config.haltBuffer) >>= fun stop => .ok (s.windows ++ [⟨s.prevBlock, stop⟩])
   else .ok s.windows) >>= fun ws =>
  .ok ({ s with windows := ws, prevBlock := secs ctx.time }, [])

/-- Raw primary key of an auction: cw-storage-plus `(Addr, String)` joined key (two length bytes, address, token). -/
def pkBytes (k : Key) : Bytes :=
  UInt8.ofNat (k.1.length / 256) :: UInt8.ofNat k.1.length :: (k.1 ++ k.2)

/-- Entries of the `end_time` index (state.rs 113-117): ordered by whole seconds, then primary key. -/
def endEntries (s : State) : List ((Nat × Bytes) × Auction) :=
  s.auctions.l.map (fun e => ((e.2.endKey, pkBytes e.1), e.2))

/-- sudo.rs 86-99: the auctions picked by the end-block hook. `as usize` truncates on wasm32. -/
def dueAuctions (ctx : Ctx) (s : State) : List Auction :=
  ((scan pkLe (endEntries s) false none (some (.excl (secs ctx.time + 1, pkBytes ([], []))))).take
    (s.config.maxSettle % 2^32)).map Prod.snd

/-- sudo.rs 106-115: settle one after the other, the first error aborts -/
def settleAll (ctx : Ctx) (c : Config) (ws : List HaltWindow) : List Auction → List Msg → State → Out
  | [], msgs, s => .ok (s, msgs)
  | a :: as, msgs, s => settleAuction p ctx a c ws msgs s >>= fun r => settleAll ctx c ws as r.2 r.1

/-- sudo.rs 79-124 `sudo_end_block` -/
def endBlock (ctx : Ctx) (s : State) : Out :=
  (match (dueAuctions ctx s).head? with
    | none => .ok none
    -- `a.end_time.unwrap()`
    | some a => orErr a.endTime .panic >>= fun e => .ok (some e)) >>= fun earliest =>
  settleAll p ctx s.config s.windows (dueAuctions ctx s) [] s >>= fun r =>
  .ok ({ r.1 with windows := dropStale s.windows earliest }, r.2)

/-- sudo.rs 127-207 `sudo_update_params` -/
def updateParams (u : Update) (s : State) : Out :=
  (match u.fairBurn with
    | none => .ok s.config.fairBurn
    | some a => addrValidate p a) >>= fun fb =>
  let c : Config :=
    { s.config with
      fairBurn := fb
      tradingFee := u.tradingFee.getD s.config.tradingFee
      minBidIncrement := u.minBidIncrement.getD s.config.minBidIncrement
      minDuration := u.minDuration.getD s.config.minDuration
      extendDuration := u.extendDuration.getD s.config.extendDuration
      createFee := u.createFee.getD s.config.createFee
      maxSettle := u.maxSettle.getD s.config.maxSettle
      haltThreshold := u.haltThreshold.getD s.config.haltThreshold
      haltBuffer := u.haltBuffer.getD s.config.haltBuffer
      haltPostpone := u.haltPostpone.getD s.config.haltPostpone }
  c.validate >>= fun _ => .ok ({ s with config := c }, [])

/-- sudo.rs 209-233 `sudo_set_min_reserve_prices` (also instantiate.rs 71-88) -/
def setMinReserve : List Coin → AMap Denom Nat → Res (AMap Denom Nat)
  | [], m => .ok m
  | c :: cs, m =>
    ensure (m.get? c.denom = none) .invalidInput >>= fun _ => setMinReserve cs (m.insert c.denom c.amount)

/-- sudo.rs 235-250 `sudo_unset_min_reserve_prices` -/
def unsetMinReserve : List Denom → AMap Denom Nat → Res (AMap Denom Nat)
  | [], m => .ok m
  | d :: ds, m =>
    ensure ((m.get? d).isSome = true) .invalidInput >>= fun _ => unsetMinReserve ds (m.erase d)

/-- sudo.rs 14-48 `sudo` -/
def sudo (ctx : Ctx) (m : Sudo) (s : State) : Out :=
  match m with
  | .beginBlock => beginBlock ctx s
  | .endBlock => endBlock p ctx s
  | .updateParams u => updateParams p u s
  | .setMinReserve cs => setMinReserve cs s.minReserve >>= fun m => .ok ({ s with minReserve := m }, [])
  | .unsetMinReserve ds => unsetMinReserve ds s.minReserve >>= fun m => .ok ({ s with minReserve := m }, [])

/-- instantiate.rs 16-99 `instantiate` -/
def instantiate (c : Config) (mins : List Coin) : Res State :=
  addrValidate p c.fairBurn >>= fun _ =>
  c.validate >>= fun _ =>
  setMinReserve mins .empty >>= fun m =>
  .ok { config := c, minReserve := m, auctions := .empty, prevBlock := 0, windows := [] }

/-- The reserve auction as a chain contract. -/
def sys (self : Addr) (honest : Addr → Prop) : Sys State Exec Sudo where
  self := self
  honest := honest
  exec := execute p
  sudo := sudo p

end
end Verif.Auction

/-
Specification vocabulary for the v2 marketplace properties. Nothing here is used by the model: only the
types of messages, orders and states and the entry points `instantiate` / `execute` are referred to.
-/
import Verif.V2.Model

namespace Verif.V2.Spec
open Verif

/-! ### Histories -/

/-- States reachable by successful calls. `G` restricts the states in which calls are made. -/
inductive Reach (p : Params) (self : Addr) (G : State → Prop) : State → Prop where
  | init {c : Config} {s : State} (h : instantiate p c = .ok s) : Reach p self G s
  | call {s s' : State} {ctx : Ctx} {sender : Addr} {funds : List Coin} {m : Exec} {msgs : List Msg}
      (hr : Reach p self G s) (hg : G s) (hself : ctx.self = self) (hne : sender ≠ self)
      (h : execute p ctx sender funds m s = .ok (s', msgs)) : Reach p self G s'

/-- No restriction. -/
def Any : State → Prop := fun _ => True
/-- The u64 bid counter does not wrap around with the next call. -/
def NoWrap : State → Prop := fun s => s.nonce + 1 < 2^64

/-- Runs of the chain machine from a fresh deployment: world and pending messages. -/
def Run (p : Params) (self : Addr) (honest : Addr → Prop) (x : World State × List Msg) : Prop :=
  ∃ c w0, instantiate p c = .ok w0.st ∧ (sys p self honest).Steps (w0, []) x

/-! ### Money -/

/-- Prices of all open bids and collection bids. -/
def bidCoins (s : State) : List Coin :=
  s.bids.vals.map (fun b => b.details.price) ++ s.cbids.vals.map (fun b => b.details.price)

/-- Amount of denom `d` paid out by the messages. -/
def paidOut (d : Denom) : List Msg → Nat
  | [] => 0
  | .send _ cs :: ms => amountOf d cs + paidOut d ms
  | .fairBurn cs :: ms => amountOf d cs + paidOut d ms
  | _ :: ms => paidOut d ms

/-- `share` (in units of 10^-18) of `price`, rounded up. -/
def feeDue (price share : Nat) : Nat := (price * share + (10^18 - 1)) / 10^18

/-- How a price is to be divided: fees in order, remainder to the seller; `none` if it does not cover the fees. -/
def split (price : Nat) (seller : Addr) (fees : List (Addr × Nat)) : Option (List (Addr × Nat)) :=
  let dues := (fees.filter (fun f => decide (f.2 ≠ 0))).map (fun f => (f.1, feeDue price f.2))
  let total := (dues.map Prod.snd).sum
  if price < total then none
  else some (dues ++ (if total = price then [] else [(seller, price - total)]))

/-- Whose royalty applies to a sale and which share: the registry's entry for this marketplace, else its
default entry, else what the collection itself says. -/
def royaltyOf (q : Queries) (registry coll : Addr) : Option Royalty :=
  match q.registry registry coll with
  | some (some r, _) => some r
  | some (none, some r) => some r
  | _ => (q.collInfo coll).bind (fun i => i.royalty)

/-- The message transfers an NFT. -/
def _root_.Verif.Msg.isNft : Msg → Bool
  | .nft _ _ _ => true
  | _ => false

/-! ### Trades -/

/-- The seller's side of a trade. `ask` is the id of the stored ask that is consumed, if any. -/
structure Sell where
  ask : Option Bytes
  coll : Addr
  tok : Bytes
  who : Addr
  limit : Coin
  payTo : Addr
  finder : Option Addr

/-- The buyer's side. `bid`/`cbid` is the id of the stored order that is consumed, if any; `tok = none`
means any token of the collection. -/
structure Buy where
  bid : Option Bytes
  cbid : Option Bytes
  coll : Addr
  tok : Option Bytes
  who : Addr
  limit : Coin
  nftTo : Addr
  finder : Option Addr
  /-- coins already in escrow for this order -/
  paid : List Coin

/-- Calls by which a buyer trades against a stored ask. -/
def BuyerCall : Exec → Prop
  | .acceptAsk _ _ | .setBid _ _ _ | .buySpecificNft _ _ _ | .updateBid _ _
  | .setCollectionBid _ _ | .buyCollectionNft _ _ | .updateCollectionBid _ _ => True
  | _ => False

/-- Calls by which a seller trades against a stored bid chosen by the contract. -/
def AskCall : Exec → Prop
  | .setAsk _ _ _ | .sellNft _ _ _ | .updateAsk _ _ => True
  | _ => False

/-- What a seller asked for, given the call and the state before it. -/
inductive SellBy (s : State) (sender : Addr) : Exec → Sell → Prop where
  | setAsk (coll tok : Bytes) (d : Details) : SellBy s sender (.setAsk coll tok d)
      ⟨none, coll, tok, sender, d.price, d.recipient.getD sender, d.finder⟩
  | sellNft (coll tok : Bytes) (d : Details) : SellBy s sender (.sellNft coll tok d)
      ⟨none, coll, tok, sender, d.price, d.recipient.getD sender, d.finder⟩
  | updateAsk (id : Bytes) (d : Details) (a : Ask) (ha : s.asks.get? id = some a) (hc : a.creator = sender) :
      SellBy s sender (.updateAsk id d)
        ⟨some id, a.collection, a.tokenId, sender, d.price, d.recipient.getD sender, d.finder⟩
  /-- accepting a bid without having listed the token -/
  | acceptBid (id : Bytes) (d : Details) (b : Bid) (hb : s.bids.get? id = some b) :
      SellBy s sender (.acceptBid id d)
        ⟨none, b.collection, b.tokenId, sender, d.price, d.recipient.getD sender, d.finder⟩
  /-- accepting a bid on a listed token: the price limit is that of the call, recipient and finder are
  those of the listing -/
  | acceptBidListed (id : Bytes) (d : Details) (aid : Bytes) (a : Ask) (ha : s.asks.get? aid = some a)
      (hc : a.creator = sender) : SellBy s sender (.acceptBid id d)
        ⟨some aid, a.collection, a.tokenId, sender, d.price, a.details.recipient.getD sender, a.details.finder⟩
  | acceptCBid (id tok : Bytes) (d : Details) (b : CBid) (hb : s.cbids.get? id = some b) :
      SellBy s sender (.acceptCollectionBid id tok d)
        ⟨none, b.collection, tok, sender, d.price, d.recipient.getD sender, d.finder⟩
  | acceptCBidListed (id tok : Bytes) (d : Details) (aid : Bytes) (a : Ask) (ha : s.asks.get? aid = some a)
      (hc : a.creator = sender) : SellBy s sender (.acceptCollectionBid id tok d)
        ⟨some aid, a.collection, a.tokenId, sender, d.price, a.details.recipient.getD sender, a.details.finder⟩
  /-- a stored ask hit by a buyer -/
  | resting (m : Exec) (aid : Bytes) (a : Ask) (hm : BuyerCall m) (ha : s.asks.get? aid = some a)
      (hid : ∀ id d, m = .acceptAsk id d → id = aid) :
      SellBy s sender m
        ⟨some aid, a.collection, a.tokenId, a.creator, a.details.price, a.details.recipient.getD a.creator,
          a.details.finder⟩

/-- What a buyer asked for, given the call and the state before it. -/
inductive BuyBy (s : State) (sender : Addr) : Exec → Buy → Prop where
  | acceptAsk (id : Bytes) (d : Details) (a : Ask) (ha : s.asks.get? id = some a) :
      BuyBy s sender (.acceptAsk id d)
        ⟨none, none, a.collection, some a.tokenId, sender, d.price, d.recipient.getD sender, d.finder, []⟩
  | setBid (coll tok : Bytes) (d : Details) : BuyBy s sender (.setBid coll tok d)
      ⟨none, none, coll, some tok, sender, d.price, d.recipient.getD sender, d.finder, []⟩
  | buySpecific (coll tok : Bytes) (d : Details) : BuyBy s sender (.buySpecificNft coll tok d)
      ⟨none, none, coll, some tok, sender, d.price, d.recipient.getD sender, d.finder, []⟩
  | updateBid (id : Bytes) (d : Details) (b : Bid) (hb : s.bids.get? id = some b) (hc : b.creator = sender) :
      BuyBy s sender (.updateBid id d)
        ⟨some id, none, b.collection, some b.tokenId, sender, d.price, d.recipient.getD sender, d.finder, [b.details.price]⟩
  | setCBid (coll : Bytes) (d : Details) : BuyBy s sender (.setCollectionBid coll d)
      ⟨none, none, coll, none, sender, d.price, d.recipient.getD sender, d.finder, []⟩
  | buyCollection (coll : Bytes) (d : Details) : BuyBy s sender (.buyCollectionNft coll d)
      ⟨none, none, coll, none, sender, d.price, d.recipient.getD sender, d.finder, []⟩
  | updateCBid (id : Bytes) (d : Details) (b : CBid) (hb : s.cbids.get? id = some b) (hc : b.creator = sender) :
      BuyBy s sender (.updateCollectionBid id d)
        ⟨none, some id, b.collection, none, sender, d.price, d.recipient.getD sender, d.finder, [b.details.price]⟩
  | acceptBid (id : Bytes) (d : Details) (b : Bid) (hb : s.bids.get? id = some b) :
      BuyBy s sender (.acceptBid id d)
        ⟨some id, none, b.collection, some b.tokenId, b.creator, b.details.price,
          b.details.recipient.getD b.creator, b.details.finder, [b.details.price]⟩
  | acceptCBid (id tok : Bytes) (d : Details) (b : CBid) (hb : s.cbids.get? id = some b) :
      BuyBy s sender (.acceptCollectionBid id tok d)
        ⟨none, some id, b.collection, none, b.creator, b.details.price,
          b.details.recipient.getD b.creator, b.details.finder, [b.details.price]⟩
  | restBid (m : Exec) (id : Bytes) (b : Bid) (hm : AskCall m) (hb : s.bids.get? id = some b) :
      BuyBy s sender m
        ⟨some id, none, b.collection, some b.tokenId, b.creator, b.details.price,
          b.details.recipient.getD b.creator, b.details.finder, [b.details.price]⟩
  | restCBid (m : Exec) (id : Bytes) (b : CBid) (hm : AskCall m) (hb : s.cbids.get? id = some b) :
      BuyBy s sender m
        ⟨none, some id, b.collection, none, b.creator, b.details.price,
          b.details.recipient.getD b.creator, b.details.finder, [b.details.price]⟩

/-- The call trades: some NFT leaves by a call that is neither the withdrawal nor the opening of a listing. -/
def Trades (m : Exec) (s' : State) (self : Addr) (msgs : List Msg) : Prop :=
  ∃ c t to, Msg.nft c t to ∈ msgs ∧ (∀ id, m ≠ .removeAsk id) ∧
    ¬ (to = self ∧ ∃ id a d, m = .setAsk c t d ∧ s'.asks.get? id = some a ∧ a.collection = c ∧ a.tokenId = t ∧
      a.details = d)

/-- Shares (in units of 10^-18) charged on a sale for protocol and finders: the finders' rewards are taken out
of the protocol fee; `maker` is the finder named by the order that was there first. -/
def feeShares (c : Config) (maker taker : Option Addr) : List (Addr × Nat) :=
  let mk := if maker.isSome then c.protocolFeeBps * c.makerRewardBps * 10^10 else 0
  let tk := if taker.isSome then c.protocolFeeBps * c.takerRewardBps * 10^10 else 0
  [(c.feeManager, c.protocolFeeBps * 10^14 - mk - tk)] ++ maker.toList.map (fun a => (a, mk)) ++
    taker.toList.map (fun a => (a, tk))

/-- Royalty recipient and share, capped. -/
def royaltyShare (q : Queries) (c : Config) (coll : Addr) : List (Addr × Nat) :=
  match royaltyOf q c.royaltyRegistry coll with
  | some r => [(r.recipient, min r.share (c.maxRoyaltyFeeBps * 10^14))]
  | none => []

/-- Calls in which the seller trades against an order that was there first. -/
def SellerCall : Exec → Bool
  | .setAsk _ _ _ | .sellNft _ _ _ | .updateAsk _ _ | .acceptBid _ _ | .acceptCollectionBid _ _ _ => true
  | _ => false

/-- Calls charged with the listing fee. -/
def Lists : Exec → Bool
  | .setAsk _ _ _ | .sellNft _ _ _ => true
  | _ => false

/-- Which side's price is charged: a buyer's call pays the ask, a seller's call is paid the bid. -/
def priceOf (m : Exec) (S : Sell) (B : Buy) : Coin := if SellerCall m then B.limit else S.limit
/-- Finders of the order that was there first and of the other one. -/
def makerOf (m : Exec) (S : Sell) (B : Buy) : Option Addr := if SellerCall m then B.finder else S.finder
def takerOf (m : Exec) (S : Sell) (B : Buy) : Option Addr := if SellerCall m then S.finder else B.finder

/-- A trade between `S` and `B` by call `m` as seen from outside: messages and removed orders. -/
structure Sale (q : Queries) (funds : List Coin) (s s' : State) (m : Exec) (msgs : List Msg) (S : Sell) (B : Buy) where
  /-- listing fee and registration of the collection's royalty -/
  pre : List Msg
  pays : List (Addr × Nat)
  /-- refund of excess funds -/
  post : List Msg
  hmsgs : msgs = pre ++ pays.map (fun x => .send x.1 [⟨(priceOf m S B).denom, x.2⟩]) ++
    .nft S.coll S.tok B.nftTo :: post
  hpre : ∀ y ∈ pre, (Lists m = true ∧ y = .send s.config.feeManager funds) ∨
    y = .initRoyalty s.config.royaltyRegistry S.coll
  hpost : ∀ y ∈ post, ∃ cs, y = .send B.who cs
  /-- a buyer gets back everything above the price -/
  hback : if SellerCall m then post = []
    else ∀ d, paidOut d post + amountOf d [priceOf m S B] = amountOf d funds + amountOf d B.paid
  hpays : split (priceOf m S B).amount S.payTo
    (feeShares s.config (makerOf m S B) (takerOf m S B) ++ royaltyShare q s.config S.coll) = some pays
  /-- the filled orders are gone -/
  hask : ∀ id, S.ask = some id → s'.asks.get? id = none
  hbid : ∀ id, B.bid = some id → s'.bids.get? id = none
  hcbid : ∀ id, B.cbid = some id → s'.cbids.get? id = none

/-- Calls that buy any token of a collection. -/
def CollCall : Exec → Prop
  | .setCollectionBid _ _ | .buyCollectionNft _ _ | .updateCollectionBid _ _ => True
  | _ => False

/-- `B` offers the most among all open bids for the token sold by `S` in its denom; a collection bid is
chosen only if it is strictly better than every token bid. -/
def BestBid (s : State) (S : Sell) (B : Buy) : Prop :=
  (∀ id b, s.bids.get? id = some b → b.collection = S.coll → b.tokenId = S.tok →
    b.details.price.denom = S.limit.denom → b.details.price.amount ≤ B.limit.amount ∧
      (B.bid = none → b.details.price.amount < B.limit.amount)) ∧
  (∀ id b, s.cbids.get? id = some b → b.collection = S.coll → b.details.price.denom = S.limit.denom →
    b.details.price.amount ≤ B.limit.amount)

/-- `S` asks the least among all open asks of the collection in the buyer's denom. -/
def Cheapest (s : State) (S : Sell) (B : Buy) : Prop :=
  ∀ id a, s.asks.get? id = some a → a.collection = B.coll → a.details.price.denom = B.limit.denom →
    S.limit.amount ≤ a.details.price.amount

/-- The token sold is the one the buyer wants. -/
def SameToken (S : Sell) (B : Buy) : Prop := S.coll = B.coll ∧ ∀ t, B.tok = some t → t = S.tok

/-! ### Assumptions on hash and addresses -/

/-- The order id hash has no collisions. -/
def HashInj (p : Params) : Prop := ∀ a b, p.hash a = p.hash b → a = b
/-- Valid addresses contain no '/'. -/
def NoSlash (p : Params) : Prop := ∀ a, p.valid a = true → (47 : UInt8) ∉ a
/-- No valid address is a proper prefix of another. -/
def PrefixFree (p : Params) : Prop := ∀ a b t, p.valid a = true → p.valid b = true → a = b ++ t → t = []

end Verif.V2.Spec

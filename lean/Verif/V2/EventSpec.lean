/-
Specification of what the events of the v2 marketplace tell: an observer that sees only the events (an indexer).
Nothing here is used by the model; only the types of orders, states and events and the entry points
`instantiateE` / `executeE` are referred to.
-/
import Verif.V2.Events
import Verif.V2.Spec

namespace Verif.V2.Spec
open Verif

/-! ### The observer -/

/-- Change a function at one point. -/
def put {K V : Type} [DecidableEq K] (f : K → V) (k : K) (v : V) : K → V := fun x => if k = x then v else f x

/-- What the observer knows. -/
structure Book where
  config : Option Config
  denoms : Addr → Option Denom
  fees : Denom → Option Nat
  asks : Bytes → Option Ask
  bids : Bytes → Option Bid
  cbids : Bytes → Option CBid

/-- Nothing has been seen yet. -/
def Book.empty : Book := ⟨none, fun _ => none, fun _ => none, fun _ => none, fun _ => none, fun _ => none⟩

/-- Attribute holding a number. -/
def num (e : Event) (k : String) : Option Nat := (e.get k).bind readNat

/-- Terms of an order. -/
def readDetails (e : Event) : Option Details :=
  ((e.get "price").bind readCoin).map (fun c => ⟨c, e.get "recipient", e.get "finder"⟩)

/-- Configuration. -/
def readConfig (e : Event) : Option Config :=
  (e.get "fee_manager").bind fun fm => (e.get "royalty_registry").bind fun rr =>
  (num e "protocol_fee_bps").bind fun pf => (num e "max_royalty_fee_bps").bind fun mr =>
  (num e "maker_reward_bps").bind fun mk => (num e "taker_reward_bps").bind fun tk =>
  (e.get "default_denom").map fun dd => ⟨fm, rr, pf, mr, mk, tk, dd⟩

def readAsk (e : Event) : Option Ask :=
  (e.get "id").bind fun id => (e.get "creator").bind fun cr => (e.get "collection").bind fun c =>
  (e.get "token_id").bind fun t => (readDetails e).map fun d => ⟨id, cr, c, t, d⟩

def readBid (e : Event) : Option Bid :=
  (e.get "id").bind fun id => (e.get "creator").bind fun cr => (e.get "collection").bind fun c =>
  (e.get "token_id").bind fun t => (readDetails e).map fun d => ⟨id, cr, c, t, d⟩

def readCBid (e : Event) : Option CBid :=
  (e.get "id").bind fun id => (e.get "creator").bind fun cr => (e.get "collection").bind fun c =>
  (readDetails e).map fun d => ⟨id, cr, c, d⟩

/-- The ask the event speaks of. It must be known, with the collection and token the event names. -/
def knownAsk (b : Book) (e : Event) : Option Ask :=
  ((e.get "id").bind b.asks).bind fun a =>
    if e.get "collection" = some a.collection ∧ e.get "token_id" = some a.tokenId then some a else none
def knownBid (b : Book) (e : Event) : Option Bid :=
  ((e.get "id").bind b.bids).bind fun a =>
    if e.get "collection" = some a.collection ∧ e.get "token_id" = some a.tokenId then some a else none
def knownCBid (b : Book) (e : Event) : Option CBid :=
  ((e.get "id").bind b.cbids).bind fun a =>
    if e.get "collection" = some a.collection then some a else none

/-- The observer reads one event. It gives up (`none`) if the event is of unknown type, lacks an attribute,
opens an order that is already open, or changes or closes one that is not. -/
def Book.see (b : Book) (e : Event) : Option Book :=
  if e.ty = "instantiate" then some b
  else if e.ty = "set-config" then (readConfig e).map fun c => { b with config := some c }
  else if e.ty = "set-collection-denom" then
    (e.get "collection").bind fun c => (e.get "denom").map fun d => { b with denoms := put b.denoms c (some d) }
  else if e.ty = "set-listing-fee" then
    (e.get "denom").bind fun d => (num e "fee").map fun n => { b with fees := put b.fees d (some n) }
  else if e.ty = "remove-listing-fee" then
    (e.get "denom").map fun d => { b with fees := put b.fees d none }
  else if e.ty = "set-ask" then
    (readAsk e).bind fun a => if b.asks a.id = none then some { b with asks := put b.asks a.id (some a) } else none
  else if e.ty = "set-bid" then
    (readBid e).bind fun a => if b.bids a.id = none then some { b with bids := put b.bids a.id (some a) } else none
  else if e.ty = "set-collection-bid" then
    (readCBid e).bind fun a => if b.cbids a.id = none then some { b with cbids := put b.cbids a.id (some a) } else none
  else if e.ty = "update-ask" then
    (knownAsk b e).bind fun a => (readDetails e).map fun d =>
      { b with asks := put b.asks a.id (some { a with details := d }) }
  else if e.ty = "update-bid" then
    (knownBid b e).bind fun a => (readDetails e).bind fun d =>
      if e.get "creator" = some a.creator then some { b with bids := put b.bids a.id (some { a with details := d }) }
      else none
  else if e.ty = "update-collection-bid" then
    (knownCBid b e).bind fun a => (readDetails e).bind fun d =>
      if e.get "creator" = some a.creator then some { b with cbids := put b.cbids a.id (some { a with details := d }) }
      else none
  else if e.ty = "remove-ask" then (knownAsk b e).map fun a => { b with asks := put b.asks a.id none }
  else if e.ty = "remove-bid" then (knownBid b e).map fun a => { b with bids := put b.bids a.id none }
  else if e.ty = "remove-collection-bid" then (knownCBid b e).map fun a => { b with cbids := put b.cbids a.id none }
  else if e.ty = "finalize-sale" then
    -- the orders that traded are closed; an order that trades at once was never open
    (e.get "ask").bind fun id =>
      match e.get "bid", e.get "collection_bid" with
      | some i, none => some { b with asks := put b.asks id none, bids := put b.bids i none }
      | none, some i => some { b with asks := put b.asks id none, cbids := put b.cbids i none }
      | _, _ => none
  else none

/-- The observer reads events one after the other. -/
def Book.replay (b : Book) : List Event → Option Book
  | [] => some b
  | e :: es => (b.see e).bind fun b' => b'.replay es

/-- The observer knows the state: configuration, denoms, listing fees and every open order. -/
structure Knows (b : Book) (s : State) : Prop where
  config : b.config = some s.config
  denoms : ∀ k, b.denoms k = s.collectionDenoms.get? k
  fees : ∀ k, b.fees k = s.listingFees.get? k
  asks : ∀ k, b.asks k = s.asks.get? k
  bids : ∀ k, b.bids k = s.bids.get? k
  cbids : ∀ k, b.cbids k = s.cbids.get? k

/-! ### Histories with events -/

/-- The denoms in which orders may be priced do not start with a digit. -/
def PlainDenoms (s : State) : Prop :=
  PlainDenom s.config.defaultDenom ∧ ∀ k d, s.collectionDenoms.get? k = some d → PlainDenom d

/-- Histories as `Reach`, with all events emitted so far, oldest first. -/
inductive Logged (p : Params) (name version : Bytes) (self : Addr) (G : State → Prop) : State → List Event → Prop where
  | init {c : Config} {s : State} {evs : List Event} (h : instantiateE p name version c = .ok (s, evs)) :
      Logged p name version self G s evs
  | call {s s' : State} {log evs : List Event} {ctx : Ctx} {sender : Addr} {funds : List Coin} {m : Exec}
      {msgs : List Msg} (hr : Logged p name version self G s log) (hg : G s) (hself : ctx.self = self)
      (hne : sender ≠ self) (h : executeE p ctx sender funds m s = .ok (s', msgs, evs)) :
      Logged p name version self G s' (log ++ evs)

/-! ### The event of a sale -/

/-- What a `finalize-sale` event says about the messages `msgs` of the call `m` in state `s`. -/
structure SaleReport (q : Queries) (s : State) (m : Exec) (msgs : List Msg) (e : Event) where
  coll : Addr
  tok : Bytes
  denom : Denom
  price : Nat
  sellerTo : Addr
  nftTo : Addr
  askId : Bytes
  /-- label, recipient and amount of the payments -/
  pays : List (String × Addr × Nat)
  pre : List Msg
  post : List Msg
  hty : e.ty = "finalize-sale"
  /-- the payments and the transfer of the token are the messages of the call, apart from listing fee, royalty
  registration and refund -/
  hmsgs : msgs = pre ++ pays.map (fun x => .send x.2.1 [⟨denom, x.2.2⟩]) ++ .nft coll tok nftTo :: post
  hpre : ∀ y ∈ pre, y.isNft = false
  hpost : ∀ y ∈ post, ∃ a cs, y = .send a cs
  /-- the fixed attributes -/
  hcoll : e.get "collection" = some coll
  htok : e.get "token_id" = some tok
  hdenom : e.get "denom" = some denom
  hprice : num e "price" = some price
  hseller : e.get "seller_recipient" = some sellerTo
  hnft : e.get "nft_recipient" = some nftTo
  hask : e.get "ask" = some askId
  hbid : (e.get "bid").isSome = !(e.get "collection_bid").isSome
  /-- one attribute for each payment, and only for those -/
  hpay : ∀ l, l ∈ ["protocol", "maker", "taker", "royalty", "seller"] →
    num e l = (pays.find? (fun x => decide (x.1 = l))).map (fun x => x.2.2)
  hlab : (pays.map (fun x => x.1)).Sublist ["protocol", "maker", "taker", "royalty", "seller"]
  /-- the payments add up to the price -/
  hsum : (pays.map (fun x => x.2.2)).sum = price
  /-- who is paid under which label -/
  hprot : ∀ a n, ("protocol", a, n) ∈ pays → a = s.config.feeManager
  hsell : ∀ a n, ("seller", a, n) ∈ pays → a = sellerTo
  hroy : ∀ a n, ("royalty", a, n) ∈ pays → ∃ r, royaltyOf q s.config.royaltyRegistry coll = some r ∧ r.recipient = a
  hmaker : ∀ a n, ("maker", a, n) ∈ pays →
    if SellerCall m then
      (∃ id o, e.get "bid" = some id ∧ s.bids.get? id = some o ∧ o.details.finder = some a) ∨
      (∃ id o, e.get "collection_bid" = some id ∧ s.cbids.get? id = some o ∧ o.details.finder = some a)
    else ∃ o, s.asks.get? askId = some o ∧ o.details.finder = some a

end Verif.V2.Spec

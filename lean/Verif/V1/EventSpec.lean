/-
Specification of what the events of marketplace v1 tell: an observer that sees only the events (an indexer).
Nothing here is used by the model; only the types of orders, states and events and the entry points `instantiate`,
`executeE`, `sudoE`, `replyE` are referred to.
-/
import Verif.V1.Events
import Verif.V1.Spec

namespace Verif.V1.Spec
open Verif

/-! ### The observer -/

/-- Change a function at one point. -/
def put {K V : Type} [DecidableEq K] (f : K → V) (k : K) (v : V) : K → V := fun x => if k = x then v else f x

/-- What the events tell of an ask: everything but the recipient of the funds and the finder's fee. -/
structure AskView where
  saleType : SaleType
  seller : Addr
  price : Nat
  reserveFor : Option Addr
  expires : Nat
  active : Bool
  deriving DecidableEq, Repr

/-- What the events tell of a bid or collection bid: everything but the finder's fee. -/
structure BidView where
  price : Nat
  expires : Nat
  deriving DecidableEq, Repr

def askView (a : Ask) : AskView := ⟨a.saleType, a.seller, a.price, a.reserveFor, a.expiresAt, a.isActive⟩
def bidView (b : Bid) : BidView := ⟨b.price, b.expiresAt⟩
def cbidView (b : CBid) : BidView := ⟨b.price, b.expiresAt⟩

/-- What the observer knows. -/
structure Book where
  asks : Addr × Nat → Option AskView
  bids : Addr × Nat × Addr → Option BidView
  cbids : Addr × Addr → Option BidView
  operators : List Addr
  askHooks : List Addr
  bidHooks : List Addr
  saleHooks : List Addr

def num (e : Event) (k : String) : Option Nat := (e.get k).bind readNat
def time (e : Event) (k : String) : Option Nat := (e.get k).bind readTime
def coin (e : Event) (k : String) : Option Coin := (e.get k).bind readCoin

/-- A truth value. -/
def flag (e : Event) (k : String) : Option Bool :=
  (e.get k).bind fun v => if v = txt "true" then some true else if v = txt "false" then some false else none

/-- A sale type. -/
def saleAttr (e : Event) (k : String) : Option SaleType :=
  (e.get k).bind fun v =>
    if v = txt "fixed_price" then some .fixedPrice else if v = txt "auction" then some .auction else none

/-- The token an event speaks of. -/
def tokenNamed (e : Event) : Option (Addr × Nat) :=
  (e.get "collection").bind fun c => (num e "token_id").map fun t => (c, t)

/-- The bid an event speaks of. -/
def bidNamed (e : Event) : Option (Addr × Nat × Addr) :=
  (tokenNamed e).bind fun k => (e.get "bidder").map fun b => (k.1, k.2, b)

/-- The collection bid an event speaks of. -/
def cbidNamed (e : Event) : Option (Addr × Addr) :=
  (e.get "collection").bind fun c => (e.get "bidder").map fun b => (c, b)

/-- The action of a response. -/
def action (e : Event) : Option String :=
  (e.get "action").map fun v => String.ofList (v.map (fun b => Char.ofNat b.toNat))

/-- Append an address that is not in the list. -/
def enlist (l : List Addr) (a : Addr) : Option (List Addr) := if a ∈ l then none else some (l ++ [a])
/-- Remove an address that is in the list. -/
def delist (l : List Addr) (a : Addr) : Option (List Addr) := if a ∈ l then some (l.erase a) else none

/-- Attributes of a response: the action of a sudo message, or a failed hook (which changes nothing). -/
def Book.seeAction (b : Book) (e : Event) : Option Book :=
  if action e = some "add_operator" then
    (e.get "operator").bind fun a => (enlist b.operators a).map fun l => { b with operators := l }
  else if action e = some "remove_operator" then
    (e.get "operator").bind fun a => (delist b.operators a).map fun l => { b with operators := l }
  else if action e = some "add_ask_hook" then
    (e.get "hook").bind fun a => (enlist b.askHooks a).map fun l => { b with askHooks := l }
  else if action e = some "remove_ask_hook" then
    (e.get "hook").bind fun a => (delist b.askHooks a).map fun l => { b with askHooks := l }
  else if action e = some "add_bid_hook" then
    (e.get "hook").bind fun a => (enlist b.bidHooks a).map fun l => { b with bidHooks := l }
  else if action e = some "remove_bid_hook" then
    (e.get "hook").bind fun a => (delist b.bidHooks a).map fun l => { b with bidHooks := l }
  else if action e = some "add_sale_hook" then
    (e.get "hook").bind fun a => (enlist b.saleHooks a).map fun l => { b with saleHooks := l }
  else if action e = some "remove_sale_hook" then
    (e.get "hook").bind fun a => (delist b.saleHooks a).map fun l => { b with saleHooks := l }
  else some b

/-- The observer reads one event. It gives up (`none`) if the event lacks an attribute or does not fit to what is
known: an order that is not open is changed or closed, an accepted or rejected bid is named with a wrong price, a listing
is said to become what it is, or a listing is removed by an operator without a reason. `sold` tells how to read `set-bid`:
as a bid that is stored (`false`) or as one that was used up by a sale (`true`); in both cases the bidder's former bid on
the token is gone. -/
def Book.see (b : Book) (sold : Bool) (e : Event) : Option Book :=
  if e.ty = "wasm" then b.seeAction e
  else if e.ty = "set-ask" then
    (tokenNamed e).bind fun k => (saleAttr e "sale_type").bind fun ty => (e.get "seller").bind fun s =>
    (coin e "price").bind fun c => (time e "expires").bind fun t =>
      if c.denom = ustars
      then some { b with asks := put b.asks k (some ⟨ty, s, c.amount, e.get "reserve_for", t, true⟩) } else none
  else if e.ty = "update-ask" then
    (tokenNamed e).bind fun k => (b.asks k).bind fun a => (coin e "price").bind fun c =>
      if c.denom = ustars then some { b with asks := put b.asks k (some { a with price := c.amount }) } else none
  else if e.ty = "update-ask-state" then
    (tokenNamed e).bind fun k => (b.asks k).bind fun a => (flag e "is_active").bind fun x =>
      if x = a.active then none else some { b with asks := put b.asks k (some { a with active := x }) }
  else if e.ty = "remove-ask" then
    (tokenNamed e).bind fun k => (b.asks k).bind fun _ =>
      -- an operator says why
      if e.get "operator" = none ∨ flag e "expired" = some true ∨ flag e "has_owner" = some false ∨
        flag e "has_approval" = some false
      then some { b with asks := put b.asks k none } else none
  else if e.ty = "finalize-sale" then
    (tokenNamed e).map fun k => { b with asks := put b.asks k none }
  else if e.ty = "set-bid" then
    (bidNamed e).bind fun k => (num e "bid_price").bind fun n => (time e "expires").map fun t =>
      { b with bids := put b.bids k (if sold then none else some ⟨n, t⟩) }
  else if e.ty = "remove-bid" ∨ e.ty = "remove-stale-bid" then
    (bidNamed e).bind fun k => (b.bids k).map fun _ => { b with bids := put b.bids k none }
  else if e.ty = "accept-bid" ∨ e.ty = "reject-bid" then
    (bidNamed e).bind fun k => (b.bids k).bind fun v =>
      if num e "price" = some v.price then some { b with bids := put b.bids k none } else none
  else if e.ty = "set-collection-bid" then
    (cbidNamed e).bind fun k => (num e "bid_price").bind fun n => (time e "expires").map fun t =>
      { b with cbids := put b.cbids k (some ⟨n, t⟩) }
  else if e.ty = "remove-collection-bid" ∨ e.ty = "remove-stale-collection-bid" then
    (cbidNamed e).bind fun k => (b.cbids k).map fun _ => { b with cbids := put b.cbids k none }
  else if e.ty = "accept-collection-bid" then
    (cbidNamed e).bind fun k => (b.cbids k).bind fun v =>
      if num e "price" = some v.price then some { b with cbids := put b.cbids k none } else none
  -- other events change nothing the observer keeps track of
  else some b

/-- The observer reads events one after the other. -/
def Book.replay (b : Book) (sold : Bool) : List Event → Option Book
  | [] => some b
  | e :: es => (b.see sold e).bind fun b' => b'.replay sold es

/-- The response contains a sale. -/
def hasSale (evs : List Event) : Bool := evs.any (fun e => decide (e.ty = "finalize-sale"))

/-- The observer reads event by event and takes every `set-bid` for a stored bid. -/
def Book.naive (b : Book) : List (List Event) → Option Book
  | [] => some b
  | r :: rs => (b.replay false r).bind fun b' => b'.naive rs

/-- The observer reads response by response: a `set-bid` next to a `finalize-sale` is not a stored bid. -/
def Book.hear (b : Book) : List (List Event) → Option Book
  | [] => some b
  | r :: rs => (b.replay (hasSale r) r).bind fun b' => b'.hear rs

/-- The observer knows the state: what can be seen of every open order, operators and hooks. -/
structure Knows (b : Book) (s : State) : Prop where
  asks : ∀ k, b.asks k = (s.asks.get? k).map askView
  bids : ∀ k, b.bids k = (s.bids.get? k).map bidView
  cbids : ∀ k, b.cbids k = (s.cbids.get? k).map cbidView
  operators : b.operators = s.params.operators
  askHooks : b.askHooks = s.askHooks
  bidHooks : b.bidHooks = s.bidHooks
  saleHooks : b.saleHooks = s.saleHooks

/-- What is known before the first event: there are no orders, and the operators and the sale hook given at
instantiation (which emits nothing). -/
def Book.start (ops hooks : List Addr) : Book := ⟨fun _ => none, fun _ => none, fun _ => none, ops, [], [], hooks⟩

/-! ### Histories with events -/

/-- Histories as `After`, with the events of every response, oldest first; `reply` is called when a hook fails. -/
inductive Logged (p : Params) (self : Addr) (s0 : State) : State → List (List Event) → Prop where
  | start : Logged p self s0 s0 []
  | call {s s' : State} {log : List (List Event)} {evs : List Event} {ctx : Ctx} {sender : Addr} {funds : List Coin}
      {m : Exec} {msgs : List Msg} (hr : Logged p self s0 s log) (hself : ctx.self = self)
      (hne : sender ≠ self) (h : executeE p ctx sender funds m s = .ok (s', msgs, evs)) :
      Logged p self s0 s' (log ++ [evs])
  | sudo {s s' : State} {log : List (List Event)} {evs : List Event} {ctx : Ctx} {m : Sudo} {msgs : List Msg}
      (hr : Logged p self s0 s log) (hself : ctx.self = self)
      (h : sudoE p ctx m s = .ok (s', msgs, evs)) : Logged p self s0 s' (log ++ [evs])
  | reply {s : State} {log : List (List Event)} {evs : List Event} {id : Nat} {error : Bytes}
      (hr : Logged p self s0 s log) (h : replyE id error = .ok evs) : Logged p self s0 s (log ++ [evs])

/-! ### Events and messages -/

/-- The sends among the messages. -/
def sends (msgs : List Msg) : List Msg :=
  msgs.filter (fun m => match m with
    | .send .. => true
    | _ => false)

/-- Tokens handed over according to the `finalize-sale` events. -/
def soldTo (evs : List Event) : List (Addr × Bytes × Addr) :=
  evs.filterMap (fun e => if e.ty = "finalize-sale"
    then (e.get "collection").bind fun c => (e.get "token_id").bind fun t => (e.get "asset_recipient").map fun r => (c, t, r)
    else none)

/-- Royalties paid according to the `royalty-payout` events. -/
def royaltySends (evs : List Event) : List Msg :=
  evs.filterMap (fun e => if e.ty = "royalty-payout"
    then (e.get "recipient").bind fun r => (coin e "amount").map fun c => Msg.send r [c] else none)

/-- Payment of `n` to `a`. -/
def pay (a : Addr) (n : Nat) : Msg := .send a [⟨ustars, n⟩]

/-- What is paid back to bidders and operators, read off what the observer knew before the response and one event of it. -/
def owed (b : Book) (e : Event) : List Msg :=
  if e.ty = "set-bid" ∨ e.ty = "remove-bid" ∨ e.ty = "reject-bid" then
    match bidNamed e with
    | some k => match b.bids k with
      | some v => [pay k.2.2 v.price]
      | none => []
    | none => []
  else if e.ty = "remove-stale-bid" then
    match bidNamed e, e.get "operator", num e "reward" with
    | some k, some o, some r => match b.bids k with
      | some v => [pay k.2.2 (v.price - r), pay o r]
      | none => []
    | _, _, _ => []
  else if e.ty = "set-collection-bid" ∨ e.ty = "remove-collection-bid" then
    match cbidNamed e with
    | some k => match b.cbids k with
      | some v => [pay k.2 v.price]
      | none => []
    | none => []
  else if e.ty = "remove-stale-collection-bid" then
    match cbidNamed e, e.get "operator", num e "reward" with
    | some k, some o, some r => match b.cbids k with
      | some v => [pay k.2 (v.price - r), pay o r]
      | none => []
    | _, _, _ => []
  else []

/-- The event announces a sale on these terms. -/
def Announces (t : Terms) (e : Event) : Prop :=
  e.ty = "finalize-sale" ∧ tokenNamed e = some (t.coll, t.tok) ∧ e.get "seller" = some t.seller ∧
    e.get "buyer" = some t.buyer ∧ num e "price" = some t.price ∧ e.get "asset_recipient" = some t.recipient

/-- The type of the last event of the response to a call. -/
def typeOf : Exec → String
  | .setAsk .. => "set-ask"
  | .removeAsk .. => "remove-ask"
  | .updateAskPrice .. => "update-ask"
  | .setBid .. | .buyNow .. | .buyFor .. => "set-bid"
  | .removeBid .. => "remove-bid"
  | .acceptBid .. => "accept-bid"
  | .rejectBid .. => "reject-bid"
  | .setCollectionBid .. => "set-collection-bid"
  | .removeCollectionBid .. => "remove-collection-bid"
  | .acceptCollectionBid .. => "accept-collection-bid"
  | .syncAsk .. => "update-ask-state"
  | .removeStaleAsk .. => "remove-ask"
  | .removeStaleBid .. => "remove-stale-bid"
  | .removeStaleCollectionBid .. => "remove-stale-collection-bid"

/-- The last event of the response says truly who asked for what: the token or collection of the message, the bidder
(the caller, or the one named), the seller, the kind of sale, the operator, and — if an operator removes a listing — what
was found out about it. -/
def Told (ctx : Ctx) (s : State) (sender : Addr) (e : Event) : Exec → Prop
  | .setAsk ty coll tok _ _ _ _ _ => tokenNamed e = some (coll, tok) ∧ e.get "seller" = some sender ∧
      saleAttr e "sale_type" = some ty
  | .removeAsk coll tok => tokenNamed e = some (coll, tok) ∧ e.get "operator" = none
  | .updateAskPrice coll tok price => tokenNamed e = some (coll, tok) ∧ coin e "price" = some price
  | .setBid coll tok _ ty _ _ => bidNamed e = some (coll, tok, sender) ∧ saleAttr e "sale_type" = some ty
  | .buyNow coll tok _ _ _ => bidNamed e = some (coll, tok, sender) ∧ saleAttr e "sale_type" = some .fixedPrice
  | .buyFor coll tok _ _ _ _ => bidNamed e = some (coll, tok, sender) ∧ saleAttr e "sale_type" = some .fixedPrice
  | .removeBid coll tok => bidNamed e = some (coll, tok, sender)
  | .acceptBid coll tok bidder _ => bidNamed e = some (coll, tok, bidder)
  | .rejectBid coll tok bidder => bidNamed e = some (coll, tok, bidder)
  | .setCollectionBid coll _ _ => cbidNamed e = some (coll, sender)
  | .removeCollectionBid coll => cbidNamed e = some (coll, sender)
  | .acceptCollectionBid coll tok bidder _ => tokenNamed e = some (coll, tok) ∧ cbidNamed e = some (coll, bidder) ∧
      e.get "seller" = some sender
  | .syncAsk coll tok => tokenNamed e = some (coll, tok) ∧ flag e "is_active" = some (ctx.q.approval coll (tokStr tok))
  | .removeStaleAsk coll tok => tokenNamed e = some (coll, tok) ∧ e.get "operator" = some sender ∧
      ∃ a, s.asks.get? (coll, tok) = some a ∧ flag e "expired" = some (decide (a.expiresAt ≤ ctx.time)) ∧
        flag e "has_owner" = some (ctx.q.ownerOf coll (tokStr tok)).isSome ∧
        flag e "has_approval" = some (ctx.q.approval coll (tokStr tok))
  | .removeStaleBid coll tok bidder => bidNamed e = some (coll, tok, bidder) ∧ e.get "operator" = some sender
  | .removeStaleCollectionBid coll bidder => cbidNamed e = some (coll, bidder) ∧ e.get "operator" = some sender

/-- The collection a message is about. -/
def collectionOf : Exec → Addr
  | .setAsk _ c .. | .removeAsk c _ | .updateAskPrice c .. | .setBid c .. | .buyNow c .. | .buyFor c .. | .removeBid c _
  | .acceptBid c .. | .rejectBid c .. | .setCollectionBid c .. | .removeCollectionBid c | .acceptCollectionBid c ..
  | .syncAsk c _ | .removeStaleAsk c _ | .removeStaleBid c .. | .removeStaleCollectionBid c _ => c

/-- The report that a hook failed. -/
def failureOf : HookKind → String
  | .ask => "ask-hook-failed"
  | .sale => "sale-hook-failed"
  | .bid => "bid-hook-failed"
  | .collectionBid => "collection-bid-hook-failed"

end Verif.V1.Spec

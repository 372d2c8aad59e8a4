/-
Specification of what the events of the reserve auction tell: an observer that sees only the events (an indexer).
Nothing here is used by the model; only the types of auctions, states and events and the entry points
`instantiateE`, `executeE`, `sudoE` are referred to.
-/
import Verif.Auction.Events
import Verif.Auction.Spec

namespace Verif.Auction.Spec
open Verif

/-! ### The observer -/

/-- Change a function at one point. -/
def put {K V : Type} [DecidableEq K] (f : K → V) (k : K) (v : V) : K → V := fun x => if k = x then v else f x

/-- What the events tell of an auction: everything but its duration and the time of the first bid. -/
structure View where
  seller : Addr
  reserve : Coin
  recipient : Option Addr
  endTime : Option Nat
  highBid : Option HighBid
  deriving DecidableEq, Repr

def view (a : Auction) : View := ⟨a.seller, a.reserve, a.recipient, a.endTime, a.highBid⟩

/-- What the observer knows. -/
structure Book where
  config : Option Config
  mins : Denom → Option Nat
  auctions : Key → Option View

/-- Nothing has been seen yet. -/
def Book.empty : Book := ⟨none, fun _ => none, fun _ => none⟩

def num (e : Event) (k : String) : Option Nat := (e.get k).bind readNat
def dec (e : Event) (k : String) : Option Nat := (e.get k).bind readDec
def time (e : Event) (k : String) : Option Nat := (e.get k).bind readTime
def coin (e : Event) (k : String) : Option Coin := (e.get k).bind readCoin

/-- The token an event speaks of. -/
def tokenOf (e : Event) : Option Key := (e.get "collection").bind fun c => (e.get "token_id").map fun t => (c, t)

/-- An attribute that may be missing: keep the value known so far. -/
def keep {α : Type} (e : Event) (k : String) (read : Bytes → Option α) (old : α) : Option α :=
  match e.get k with
  | none => some old
  | some v => read v

/-- Configuration announced at instantiation. The maximum duration is not announced and left at 0. -/
def readConfig (e : Event) : Option Config :=
  (e.get "fair_burn").bind fun fb => (dec e "trading_fee_percent").bind fun tf =>
  (dec e "min_bid_increment_percent").bind fun mi => (num e "min_duration").bind fun md =>
  (num e "extend_duration").bind fun ed => (coin e "create_auction_fee").bind fun cf =>
  (num e "max_auctions_to_settle_per_block").bind fun ms => (num e "halt_duration_threshold").bind fun ht =>
  (num e "halt_buffer_duration").bind fun hb => (num e "halt_postpone_duration").map fun hp =>
  ⟨fb, tf, mi, md, 0, ed, cf, ms, ht, hb, hp⟩

/-- Configuration after an update. -/
def readUpdate (c : Config) (e : Event) : Option Config :=
  (keep e "fair_burn" some c.fairBurn).bind fun fb =>
  (keep e "trading_fee_percent" readDec c.tradingFee).bind fun tf =>
  (keep e "min_bid_increment_percent" readDec c.minBidIncrement).bind fun mi =>
  (keep e "min_duration" readNat c.minDuration).bind fun md =>
  (keep e "extend_duration" readNat c.extendDuration).bind fun ed =>
  (keep e "create_auction_fee" readCoin c.createFee).bind fun cf =>
  (keep e "max_auctions_to_settle_per_block" readNat c.maxSettle).bind fun ms =>
  (keep e "halt_duration_threshold" readNat c.haltThreshold).bind fun ht =>
  (keep e "halt_buffer_duration" readNat c.haltBuffer).bind fun hb =>
  (keep e "halt_postpone_duration" readNat c.haltPostpone).map fun hp =>
  ⟨fb, tf, mi, md, 0, ed, cf, ms, ht, hb, hp⟩

/-- The observer reads one event. It gives up (`none`) if the event lacks an attribute or does not fit to what is
known: an auction is opened twice, or one that is not open is changed or closed, or seller, previous or final bid are
named wrongly. -/
def Book.see (b : Book) (e : Event) : Option Book :=
  if e.ty = "wasm" then
    -- attributes of a response: instantiation, or the start and end of a halt
    match e.get "action" with
    | some _ => (readConfig e).map fun c => { b with config := some c }
    | none => some b
  else if e.ty = "sudo-update-params" then
    b.config.bind fun c => (readUpdate c e).map fun c' => { b with config := some c' }
  else if e.ty = "set-min-reserve-price" then
    (e.get "denom").bind fun d => (num e "amount").bind fun n =>
      if b.mins d = none then some { b with mins := put b.mins d (some n) } else none
  else if e.ty = "unset-min-reserve-price" then
    (e.get "denom").bind fun d => (b.mins d).map fun _ => { b with mins := put b.mins d none }
  else if e.ty = "create-auction" then
    (tokenOf e).bind fun k => (e.get "seller").bind fun s => (coin e "reserve_price").bind fun r =>
      if b.auctions k = none
      then some { b with auctions := put b.auctions k (some ⟨s, r, e.get "seller_funds_recipient", none, none⟩) }
      else none
  else if e.ty = "update-reserve-price" then
    (tokenOf e).bind fun k => (b.auctions k).bind fun v => (coin e "reserve_price").bind fun r =>
      if v.highBid = none then some { b with auctions := put b.auctions k (some { v with reserve := r }) } else none
  else if e.ty = "cancel-auction" then
    (tokenOf e).bind fun k => (b.auctions k).bind fun v =>
      if v.highBid = none then some { b with auctions := put b.auctions k none } else none
  else if e.ty = "place-bid" then
    (tokenOf e).bind fun k => (b.auctions k).bind fun v => (e.get "bidder").bind fun w =>
    (coin e "bid_amount").bind fun c => (time e "auction_end_time").bind fun t =>
      if e.get "seller" = some v.seller ∧
        e.get "first_bid" = some (txt (if v.highBid = none then "true" else "false")) ∧
        e.get "previous_bidder" = v.highBid.map (fun h => h.bidder) ∧
        coin e "previous_bid_amount" = v.highBid.map (fun h => h.coin)
      then some { b with auctions := put b.auctions k (some { v with endTime := some t, highBid := some ⟨c, w⟩ }) }
      else none
  else if e.ty = "postpone-auction" then
    (tokenOf e).bind fun k => (b.auctions k).bind fun v => (time e "auction_end_time").bind fun t =>
      if v.highBid = none then none else some { b with auctions := put b.auctions k (some { v with endTime := some t }) }
  else if e.ty = "settle-auction" then
    (tokenOf e).bind fun k => (b.auctions k).bind fun v => v.highBid.bind fun h =>
      if e.get "seller" = some v.seller ∧ e.get "bidder" = some h.bidder ∧ num e "bid_amount" = some h.coin.amount ∧
        e.get "bid_denom" = some h.coin.denom
      then some { b with auctions := put b.auctions k none }
      else none
  -- other events change nothing the observer keeps track of
  else some b

/-- The observer reads events one after the other. -/
def Book.replay (b : Book) : List Event → Option Book
  | [] => some b
  | e :: es => (b.see e).bind fun b' => b'.replay es

/-- The observer knows the state: configuration but for the maximum duration, minimum reserve prices and what can be
seen of every open auction. -/
structure Knows (b : Book) (s : State) : Prop where
  config : b.config = some { s.config with maxDuration := 0 }
  mins : ∀ d, b.mins d = s.minReserve.get? d
  auctions : ∀ k, b.auctions k = (s.auctions.get? k).map view

/-! ### Histories with events -/

/-- The denoms of the creation fee and of the minimum reserve prices do not start with a digit. -/
def PlainDenoms (s : State) : Prop :=
  PlainDenom s.config.createFee.denom ∧ ∀ d, s.minReserve.get? d ≠ none → PlainDenom d

/-- Histories as `Reach`, with all events emitted so far, oldest first. `G` holds in the states that were left. -/
inductive Logged (p : Params) (name version : Bytes) (self : Addr) (G : State → Prop) : State → List Event → Prop where
  | init {c : Config} {mins : List Coin} {s : State} {evs : List Event}
      (h : instantiateE p name version c mins = .ok (s, evs)) : Logged p name version self G s evs
  | call {s s' : State} {log evs : List Event} {ctx : Ctx} {sender : Addr} {funds : List Coin} {m : Exec}
      {msgs : List Msg} (hr : Logged p name version self G s log) (hg : G s) (hself : ctx.self = self)
      (hne : sender ≠ self) (h : executeE p ctx sender funds m s = .ok (s', msgs, evs)) :
      Logged p name version self G s' (log ++ evs)
  | sudo {s s' : State} {log evs : List Event} {ctx : Ctx} {m : Sudo} {msgs : List Msg}
      (hr : Logged p name version self G s log) (hg : G s) (hself : ctx.self = self)
      (h : sudoE p ctx m s = .ok (s', msgs, evs)) : Logged p name version self G s' (log ++ evs)

/-! ### Halts -/

/-- Histories as `Logged`, with the events of every response kept apart, oldest response first. -/
inductive Heard (p : Params) (name version : Bytes) (self : Addr) (G : State → Prop) :
    State → List (List Event) → Prop where
  | init {c : Config} {mins : List Coin} {s : State} {evs : List Event}
      (h : instantiateE p name version c mins = .ok (s, evs)) : Heard p name version self G s [evs]
  | call {s s' : State} {log : List (List Event)} {evs : List Event} {ctx : Ctx} {sender : Addr} {funds : List Coin}
      {m : Exec} {msgs : List Msg} (hr : Heard p name version self G s log) (hg : G s) (hself : ctx.self = self)
      (hne : sender ≠ self) (h : executeE p ctx sender funds m s = .ok (s', msgs, evs)) :
      Heard p name version self G s' (log ++ [evs])
  | sudo {s s' : State} {log : List (List Event)} {evs : List Event} {ctx : Ctx} {m : Sudo} {msgs : List Msg}
      (hr : Heard p name version self G s log) (hg : G s) (hself : ctx.self = self)
      (h : sudoE p ctx m s = .ok (s', msgs, evs)) : Heard p name version self G s' (log ++ [evs])

/-- An observer that also keeps track of the halts of the chain the contract remembers. -/
structure Watch where
  book : Book
  windows : List HaltWindow

/-- Nothing has been seen yet. -/
def Watch.start : Watch := ⟨.empty, []⟩

/-- The oldest halt is forgotten at the end of a block, unless an auction was due in it that ended (in seconds) before or
when the halt did; `t` is the end time of the first auction that was due. -/
def forget (ws : List HaltWindow) (t : Option Nat) : List HaltWindow :=
  match ws, t with
  | [], _ => []
  | _ :: rest, none => rest
  | w :: rest, some t => if sec t ≤ w.stop then w :: rest else rest

/-- The observer reads one response: events as before; `halt-detected` goes with a halt whose start and end are
attributes of the response; in a response that starts with `sudo-end-block` the next event names the first auction that
was due. -/
def Watch.hear (w : Watch) (r : List Event) : Option Watch :=
  (w.book.replay r).bind fun b =>
    match r with
    | [] => some ⟨b, w.windows⟩
    | e :: rest =>
      if e.ty = "sudo-end-block" then
        match rest with
        | [] => some ⟨b, forget w.windows none⟩
        | f :: _ => (tokenOf f).bind fun k => (w.book.auctions k).bind fun v => v.endTime.map fun t =>
            ⟨b, forget w.windows (some t)⟩
      else if r.any (fun f => decide (f.ty = "halt-detected")) then
        (num e "start_time").bind fun a => (num e "end_time").map fun z => ⟨b, w.windows ++ [⟨a, z⟩]⟩
      else some ⟨b, w.windows⟩

/-- The observer reads responses one after the other. -/
def Watch.follow (w : Watch) : List (List Event) → Option Watch
  | [] => some w
  | r :: rs => (w.hear r).bind fun w' => w'.follow rs

/-- The whole second lies strictly inside a remembered halt. -/
def Halted (ws : List HaltWindow) (t : Nat) : Prop := ∃ w ∈ ws, w.start < t ∧ t < w.stop

/-! ### Events and messages -/

/-- The transfers of tokens among the messages. -/
def transfers (msgs : List Msg) : List Msg :=
  msgs.filter (fun m => match m with
    | .nft .. => true
    | _ => false)

/-- Transfers announced by the `settle-auction` events: token and winner, in order. -/
def announced (evs : List Event) : List Msg :=
  evs.filterMap (fun e => if e.ty = "settle-auction"
    then (tokenOf e).bind fun k => (e.get "bidder").map fun w => Msg.nft k.1 k.2 w else none)

/-- Amount of denom `d` announced by the `settle-auction` events. -/
def announcedAmount (d : Denom) : List Event → Nat
  | [] => 0
  | e :: es => (if e.ty = "settle-auction" ∧ e.get "bid_denom" = some d then (num e "bid_amount").getD 0 else 0) +
      announcedAmount d es

/-- Refund announced by a `place-bid` event. -/
def refund (e : Event) : List Msg :=
  match e.get "previous_bidder", coin e "previous_bid_amount" with
  | some w, some c => [.send w [c]]
  | _, _ => []

/-- Types of event of a call. -/
def typesOf : Exec → List String
  | .create .. => ["create-auction"]
  | .updateReserve .. => ["update-reserve-price"]
  | .cancel .. => ["cancel-auction"]
  | .bid .. => ["place-bid"]
  | .settle .. => ["settle-auction", "postpone-auction"]

end Verif.Auction.Spec

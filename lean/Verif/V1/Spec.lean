/-
Specification vocabulary for the v1 marketplace properties. Nothing here is used by the model: only the types of
messages, orders and states and the entry points `instantiate`, `execute`, `sudo` are referred to.
-/
import Verif.V1.Model

namespace Verif.V1.Spec
open Verif

/-! ### Histories -/

/-- One successful call or sudo message. -/
inductive Step (p : Params) (self : Addr) : State → State → Prop where
  | call {s s' : State} {ctx : Ctx} {sender : Addr} {funds : List Coin} {m : Exec} {msgs : List Msg}
      (hself : ctx.self = self) (hne : sender ≠ self)
      (h : execute p ctx sender funds m s = .ok (s', msgs)) : Step p self s s'
  | sudo {s s' : State} {ctx : Ctx} {m : Sudo} {msgs : List Msg}
      (hself : ctx.self = self) (h : sudo p ctx m s = .ok (s', msgs)) : Step p self s s'

/-- Later states. -/
inductive After (p : Params) (self : Addr) : State → State → Prop where
  | refl (s : State) : After p self s s
  | step {a b c : State} (h : After p self a b) (hs : Step p self b c) : After p self a c

/-- Reachable states. -/
def Reach (p : Params) (self : Addr) (s : State) : Prop :=
  ∃ i s0, instantiate p i = .ok s0 ∧ After p self s0 s

/-- Runs of the chain machine from a fresh deployment: world and pending messages. -/
def Run (p : Params) (self : Addr) (honest : Addr → Prop) (x : World State × List Msg) : Prop :=
  ∃ i w0, instantiate p i = .ok w0.st ∧ (sys p self honest).Steps (w0, []) x

/-! ### Money -/

/-- "ustars" -/
def ustars : Denom := "ustars".toUTF8.toList

/-- Amount of denom `d` paid out by the messages. -/
def paidOut (d : Denom) : List Msg → Nat
  | [] => 0
  | .send _ cs :: ms => amountOf d cs + paidOut d ms
  | .fairBurn cs :: ms => amountOf d cs + paidOut d ms
  | _ :: ms => paidOut d ms

/-- Amount of denom `d` sent to `a` by the messages. -/
def sentTo (a : Addr) (d : Denom) : List Msg → Nat
  | [] => 0
  | .send b cs :: ms => (if b = a then amountOf d cs else 0) + sentTo a d ms
  | _ :: ms => sentTo a d ms

/-- Sum of all open bids and collection bids. -/
def openBids (s : State) : Nat := (s.bids.vals.map Bid.price).sum + (s.cbids.vals.map CBid.price).sum

/-- `n` basis points (1/10000) of `x`, rounded down. -/
def share (n x : Nat) : Nat := x * n / 10000

/-- The message is a notification of a hook contract. -/
def IsHook : Msg → Prop
  | .hook _ _ => True
  | _ => False

instance : DecidablePred IsHook := fun m => by cases m <;> unfold IsHook <;> infer_instance

/-- The messages that are not notifications. -/
def core (ms : List Msg) : List Msg := ms.filter (fun m => ¬ IsHook m)

/-- The state with all hooks unregistered. -/
def unhook (s : State) : State := { s with askHooks := [], bidHooks := [], saleHooks := [], cbidHooks := [] }

/-- Tokens handed over by the messages: collection, token, recipient. -/
def handed : List Msg → List (Addr × Bytes × Addr)
  | [] => []
  | .nft c t r :: ms => (c, t, r) :: handed ms
  | _ :: ms => handed ms

/-! ### Sales -/

/-- What a call offers to trade, read off the message, the attached listing or bid: `payee` is to receive the proceeds,
`recipient` the token. -/
structure Terms where
  coll : Addr
  tok : Nat
  price : Nat
  seller : Addr
  payee : Addr
  buyer : Addr
  recipient : Addr
  finder : Option Addr
  fee : Option Nat

/-- Terms of a purchase from the listing. -/
def listed (s : State) (sender : Addr) (c : Addr) (t : Nat) (f : Option Addr) (r : Addr) : Option Terms :=
  (s.asks.get? (c, t)).map (fun a => ⟨c, t, a.price, a.seller, a.fundsRecipient.getD a.seller, sender, r, f, a.findersFee⟩)

def terms (s : State) (sender : Addr) : Exec → Option Terms
  | .setBid c t _ _ f _ => listed s sender c t f sender
  | .buyNow c t _ f _ => listed s sender c t f sender
  | .buyFor c t _ f _ r => listed s sender c t f r
  | .acceptBid c t b f => (s.bids.get? (c, t, b)).map (fun x => ⟨c, t, x.price, sender, sender, b, b, f, x.findersFee⟩)
  | .acceptCollectionBid c t b f => (s.cbids.get? (c, b)).map (fun x => ⟨c, t, x.price, sender, sender, b, b, f, x.findersFee⟩)
  | _ => none

/-- The call bids on token `t` of collection `c`. -/
def bidsOn (c : Addr) (t : Nat) : Exec → Prop
  | .setBid c' t' _ _ _ _ | .buyNow c' t' _ _ _ | .buyFor c' t' _ _ _ _ => c' = c ∧ t' = t
  | _ => False

/-- The caller's standing bid on the token the call bids on, which a new bid replaces. -/
def oldBid (s : State) (sender : Addr) : Exec → Option Bid
  | .setBid c t _ _ _ _ | .buyNow c t _ _ _ | .buyFor c t _ _ _ _ => s.bids.get? (c, t, sender)
  | _ => none

/-- Royalty share reported by the collection, in units of 10^-18; zero if none. -/
def royaltyOf (q : Queries) (c : Addr) : Nat := ((q.collInfo c).bind (fun i => i.royalty.map (fun r => r.share))).getD 0

end Verif.V1.Spec

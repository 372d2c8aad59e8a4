/-
Specification vocabulary for the reserve auction properties. Nothing here is used by the model: only the types of
messages, auctions and states and the entry points `instantiate`, `execute`, `sudo` are referred to.
-/
import Verif.Auction.Model

namespace Verif.Auction.Spec
open Verif

/-! ### What is assumed about sg-marketplace-common 1.1.0 -/

/-- The message moves coins and nothing else; bank sends are non-empty and positive. -/
def IsPayment : Msg → Prop
  | .send _ cs => cs ≠ [] ∧ ∀ c ∈ cs, 0 < c.amount
  | .fairBurn _ => True
  | _ => False

/-- Amount of denom `d` paid out by the messages. -/
def paidOut (d : Denom) : List Msg → Nat
  | [] => 0
  | .send _ cs :: ms => amountOf d cs + paidOut d ms
  | .fairBurn cs :: ms => amountOf d cs + paidOut d ms
  | _ :: ms => paidOut d ms

structure LibOk (l : Lib) : Prop where
  /-- `only_owner` passes only if the owner reported by the collection is the sender -/
  owner : ∀ ctx sender coll tok, l.onlyOwner ctx sender coll tok = .ok () →
    ∀ o, ctx.q.ownerOf coll tok = some o → o = sender
  /-- `has_approval` passes only if the collection reports that the contract may transfer the token -/
  approved : ∀ ctx coll tok, l.hasApproval ctx coll tok = .ok () → ctx.q.approval coll tok = true
  /-- `only_tradable` passes only if the collection's reported start of trading, if any, has passed -/
  tradable : ∀ ctx coll, l.onlyTradable ctx coll = .ok () →
    ∀ i t, ctx.q.collInfo coll = some i → i.start = some t → t ≤ ctx.time
  /-- `payout_nft_sale_fees` emits payments only -/
  pays : ∀ c a f n r ms, l.payout c a f n r = .ok ms → ∀ m ∈ ms, IsPayment m
  /-- `payout_nft_sale_fees` pays out exactly the sale price -/
  exact : ∀ c a f n r ms, l.payout c a f n r = .ok ms → ∀ d, paidOut d ms = amountOf d [c]

/-- The library itself does not panic. -/
structure LibCalm (l : Lib) : Prop where
  owner : ∀ ctx a c t, l.onlyOwner ctx a c t ≠ .error .panic
  approval : ∀ ctx c t, l.hasApproval ctx c t ≠ .error .panic
  tradable : ∀ ctx c, l.onlyTradable ctx c ≠ .error .panic
  royalties : ∀ q c, l.royalties q c ≠ .error .panic
  payout : ∀ c a f n r, l.payout c a f n r ≠ .error .panic

/-! ### Histories -/

/-- One successful call or hook. -/
inductive Step (p : Params) (self : Addr) : State → State → Prop where
  | call {s s' : State} {ctx : Ctx} {sender : Addr} {funds : List Coin} {m : Exec} {msgs : List Msg}
      (hself : ctx.self = self) (hne : sender ≠ self)
      (h : execute p ctx sender funds m s = .ok (s', msgs)) : Step p self s s'
  | sudo {s s' : State} {ctx : Ctx} {m : Sudo} {msgs : List Msg}
      (hself : ctx.self = self) (h : sudo p ctx m s = .ok (s', msgs)) : Step p self s s'

/-- Later states. -/
inductive After (p : Params) (self : Addr) : State → State → Prop where
  | refl (s : State) : After p self s s
  | step {a b c : State} (h : After p self a b) (hs : Step p self b c) : After p self a c

/-- Reachable states. -/
def Reach (p : Params) (self : Addr) (s : State) : Prop :=
  ∃ c mins s0, instantiate p c mins = .ok s0 ∧ After p self s0 s

/-- Later states such that the auction of token `k` has been open all the time. -/
inductive Open (p : Params) (self : Addr) (k : Key) : State → State → Prop where
  | refl (s : State) : Open p self k s s
  | step {a b c : State} (h : Open p self k a b) (hs : Step p self b c) (hk : c.auctions.get? k ≠ none) :
      Open p self k a c

/-- Later states in histories whose block times do not decrease; `t`, `t'` are the times of the last step. -/
inductive Timed (p : Params) (self : Addr) (t0 : Nat) (s0 : State) : Nat → State → Prop where
  | refl : Timed p self t0 s0 t0 s0
  | call {t : Nat} {s s' : State} {ctx : Ctx} {sender : Addr} {funds : List Coin} {m : Exec} {msgs : List Msg}
      (h : Timed p self t0 s0 t s) (ht : t ≤ ctx.time) (hself : ctx.self = self) (hne : sender ≠ self)
      (hx : execute p ctx sender funds m s = .ok (s', msgs)) : Timed p self t0 s0 ctx.time s'
  | sudo {t : Nat} {s s' : State} {ctx : Ctx} {m : Sudo} {msgs : List Msg}
      (h : Timed p self t0 s0 t s) (ht : t ≤ ctx.time) (hself : ctx.self = self)
      (hx : Auction.sudo p ctx m s = .ok (s', msgs)) : Timed p self t0 s0 ctx.time s'

/-- Runs of the chain machine from a fresh deployment: world and pending messages. -/
def Run (p : Params) (self : Addr) (honest : Addr → Prop) (x : World State × List Msg) : Prop :=
  ∃ c mins w0, instantiate p c mins = .ok w0.st ∧ (sys p self honest).Steps (w0, []) x

/-! ### Money and time -/

/-- All standing high bids. -/
def highBids (s : State) : List Coin := s.auctions.vals.flatMap (fun a => (a.highBid.map (fun h => h.coin)).toList)

/-- Whole seconds of a nanosecond timestamp. -/
def sec (t : Nat) : Nat := t / 1000000000

/-- The token of a message, if it concerns one auction. -/
def keyOf : Exec → Key
  | .create c t _ _ _ | .updateReserve c t _ | .cancel c t | .bid c t | .settle c t => (c, t)

/-- `n` raised by `share` (in units of 10^-18), rounded up. -/
def raised (n share : Nat) : Nat := (n * (10^18 + share) + (10^18 - 1)) / 10^18

/-- Whole-second end time of the auction of token `k` lies strictly inside the window. -/
def EndsIn (s : State) (k : Key) (w : HaltWindow) : Prop :=
  ∃ a e, s.auctions.get? k = some a ∧ a.endTime = some e ∧ w.start < sec e ∧ sec e < w.stop

/-- Number of auctions whose end lies in or before the second of time `t`. -/
def dueCount (s : State) (t : Nat) : Nat :=
  (s.auctions.vals.filter (fun a =>
    match a.endTime with
    | some e => decide (sec e ≤ sec t)
    | none => false)).length

/-- The auction of token `k` has ended by time `t`. -/
def EndedBy (s : State) (k : Key) (t : Nat) : Prop :=
  ∃ a e, s.auctions.get? k = some a ∧ a.endTime = some e ∧ e ≤ t

end Verif.Auction.Spec

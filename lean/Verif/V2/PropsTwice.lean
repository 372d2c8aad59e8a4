/-
Marketplace v2: a purchase that is sent twice: C165.
-/
import Verif.V2.PropsOnce

namespace Verif.V2
open Verif Spec

/-- The call is about buying one given token. -/
def Spec.BuysGiven : Exec → Prop
  | .acceptAsk _ _ | .setBid _ _ _ | .buySpecificNft _ _ _ => True
  | _ => False

/-- A call that has bought the token it is about fails if it is sent again, at any time and with any coins. -/
def C165_v2_statement : Prop :=
  ∀ (p : Params) (me : Addr) (G : State → Prop) (s s' : State) (ctx ctx' : Ctx) (sender : Addr) (funds funds' : List Coin) (m : Exec)
    (msgs : List Msg), Reach p me G s → ctx.self = me → BuysGiven m → execute p ctx sender funds m s = .ok (s', msgs) → Trades m s' me msgs →
    ∃ e, execute p ctx' sender funds' m s' = .error e

section
variable {p : Params} {me : Addr} {G : State → Prop}

/-- The listing that the call buys. -/
def boughtAsk (p : Params) : Exec → Option Bytes
  | .acceptAsk id _ => some id
  | .buySpecificNft c t _ => some (askId p c t)
  | _ => none

theorem match_ask {s : State} {b : Bid} {a : Ask} (h : b.matchWithAsk p s = some a) :
    s.asks.get? (askId p b.collection b.tokenId) = some a := by
  unfold Bid.matchWithAsk at h
  split at h
  case h_1 x hx =>
    split at h
    · cases h; exact hx
    · cases h
  case h_2 => cases h

theorem bought_ask {ctx : Ctx} {sender : Addr} {funds : List Coin} {m : Exec} {s s' : State} {msgs : List Msg} {id : Bytes}
    (hw : WF p s) (hm : boughtAsk p m = some id) (hx : execute p ctx sender funds m s = .ok (s', msgs)) :
    s.asks.get? id ≠ none ∧ s'.asks.get? id = none := by
  have key : ∀ (s0 : State) (a : Ask) (mb : MatchingBid), s.asks.get? id = some a → (afterSale s0 a mb).asks.get? id = none := by
    intro s0 a mb ha
    rw [← (hw.ask ha).1]
    cases mb <;> simp [afterSale, removeMatching]
  cases execute_eff hx <;> try cases hm
  case accAsk ha => exact ⟨by rw [ha]; simp, key _ _ _ ha⟩
  case buyBid =>
    rename _ ∨ _ => h
    rename Bid.matchWithAsk _ _ _ = _ => ha
    rcases h with rfl | rfl <;> cases hm
    have ha := match_ask ha
    exact ⟨fun e => (by cases ha.symm.trans e), key _ _ _ ha⟩
  case sellAsk =>
    rename _ ∨ _ => h
    rcases h with rfl | rfl <;> cases hm
  case buyCBid =>
    rename _ ∨ _ => h
    rcases h with rfl | rfl <;> cases hm

/-- What holds: so it is for calls that do not leave a bid if there is no listing. -/
theorem C165_partial_v2 {s s' : State} {ctx ctx' : Ctx} {sender : Addr} {funds funds' : List Coin} {m : Exec} {msgs : List Msg}
    (hr : Reach p me G s) (hself : ctx.self = me) (hne : sender ≠ me) (hg : G s) (hm : BuysGiven m) (hno : ∀ c t d, m ≠ .setBid c t d)
    (hx : execute p ctx sender funds m s = .ok (s', msgs)) : ∃ e, execute p ctx' sender funds' m s' = .error e := by
  have hw := Spec.Reach.wf hr
  have hw' := Spec.Reach.wf (.call hr hg hself hne hx)
  cases hx2 : execute p ctx' sender funds' m s' with
  | error e => exact ⟨e, rfl⟩
  | ok r =>
    exfalso
    have : ∃ id, boughtAsk p m = some id := by
      cases m <;> first | exact hm.elim | exact ⟨_, rfl⟩ | exact absurd rfl (hno _ _ _)
    obtain ⟨id, hid⟩ := this
    exact (bought_ask hw' hid hx2).1 (bought_ask hw hid hx).2

end

namespace Sample
/-- bob buys the token for 100 with a bid and sends the call again -/
def bidMsg : Exec := .setBid coll tok (det 100)
def b1 : State × List Msg := run (ctx (some self)) bob [⟨ust, 100⟩] bidMsg s4
theorem b1_ok : execute P (ctx (some self)) bob [⟨ust, 100⟩] bidMsg s4 = .ok (b1.1, b1.2) := run_eq (by decide +kernel)
theorem b1_trades : Trades bidMsg b1.1 self b1.2 := trades_of (c := coll) (t := tok) (to := bob) (by decide +kernel) (by decide) (by simp [bidMsg])
theorem b2_ok : ok (ctx (some bob)) bob [⟨ust, 100⟩] bidMsg b1.1 = true := by decide +kernel
/-- the second call has left a bid of 100 by bob on the token it owns -/
example : ((run (ctx (some bob)) bob [⟨ust, 100⟩] bidMsg b1.1).1.bids.l.filter (fun x => x.2.creator = bob)).map
    (fun x => x.2.details.price.amount) = [80, 100] ∨
  ((run (ctx (some bob)) bob [⟨ust, 100⟩] bidMsg b1.1).1.bids.l.filter (fun x => x.2.creator = bob)).map
    (fun x => x.2.details.price.amount) = [100, 80] := by decide +kernel
example := C165_partial_v2 (ctx' := ctx (some bob)) (funds' := [⟨ust, 100⟩]) r4 rfl (by decide) (by decide +kernel) (m := .acceptAsk aid (det 100))
  trivial (fun _ _ _ => by simp) (run_eq (c := ctx (some self)) (sender := bob) (funds := [⟨ust, 100⟩]) (by decide +kernel))
end Sample

/-- The code violates C165 in v2: `SetBid` that has bought the token leaves a bid for it when it is sent again. -/
theorem C165_v2_violated : ¬ C165_v2_statement := by
  intro h
  obtain ⟨e, he⟩ := h Sample.P Sample.self _ Sample.s4 Sample.b1.1 (Sample.ctx (some Sample.self)) (Sample.ctx (some Sample.bob)) Sample.bob
    [⟨Sample.ust, 100⟩] [⟨Sample.ust, 100⟩] Sample.bidMsg Sample.b1.2 Sample.r4 rfl trivial Sample.b1_ok Sample.b1_trades
  rw [Sample.run_eq Sample.b2_ok] at he
  cases he

end Verif.V2

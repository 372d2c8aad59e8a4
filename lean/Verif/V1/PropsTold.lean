/-
Property C114: the events of marketplace v1 say truly who did what and why.
-/
import Verif.V1.PropsEvents

namespace Verif.V1
open Verif Spec

section
variable {p : Params}

theorem told_bid {ctx : Ctx} {s : State} {sender : Addr} {m : Exec} {b : BidArgs} {price : Nat}
    (hm : bidArgs m = some b) :
    Told ctx s sender (setBidEvent (saleOf m) ⟨b.coll, b.tok, sender, price, b.fee, b.expires⟩) m := by
  cases m <;> cases hm <;>
    simp [Told, setBidEvent, bidNamed, tokenNamed, num, saleAttr, saleOf, Event.get_mk, readNat_tokStr, sale_show]

theorem coll_bid {m : Exec} {b : BidArgs} (hm : bidArgs m = some b) : collectionOf m = b.coll := by
  cases m <;> cases hm <;> rfl

theorem sold_royalty {ctx : Ctx} {s : State} {a : Ask} {price : Nat} {buyer : Addr} {finder recipient : Option Addr}
    {sale : List Msg} {es : List Event} (h : SoldE ctx s a price buyer finder recipient sale es) :
    ∀ r ∈ es, r.ty = "royalty-payout" → r.get "collection" = some a.collection := by
  cases h with
  | mk pay es h =>
    intro r hr hty
    rw [List.mem_append, List.mem_singleton] at hr
    cases h with
    | royalty =>
      rcases hr with hr | rfl
      · rw [List.mem_singleton] at hr; subst hr; simp [royaltyEvent, Event.get_mk]
      · simp [saleEvent] at hty
    | plain =>
      rcases hr with hr | rfl
      · cases hr
      · simp [saleEvent] at hty

/-- **C114** (1) The last event of every response says truly who asked for what, and every event about a royalty names
the collection the call was about. -/
theorem C114_told {me : Addr} {ctx : Ctx} {sender : Addr} {funds : List Coin} {m : Exec} {s s' : State} {msgs : List Msg}
    {evs : List Event} (hr : Reach p me s) (h : executeE p ctx sender funds m s = .ok (s', msgs, evs)) :
    (∃ e, evs.getLast? = some e ∧ Told ctx s sender e m) ∧
    ∀ r ∈ evs, r.ty = "royalty-payout" → r.get "collection" = some (collectionOf m) := by
  have hw := hr.wf
  cases executeE_eff h with
  | bidSaved _ b price bid hm hfunds hbid =>
    subst hbid
    exact ⟨⟨_, rfl, told_bid hm⟩, by simp [setBidEvent]⟩
  | bought _ b price bid ask sale es hm hfunds hbid ha hprice hsale =>
    subst hbid
    refine ⟨⟨_, List.getLast?_concat, told_bid hm⟩, fun r hr hty => ?_⟩
    rw [List.mem_append, List.mem_singleton] at hr
    rcases hr with hr | rfl
    · have hkey : (ask.collection, ask.tokenId) = (b.coll, b.tok) := (hw.asks _ _ ha).key
      rw [sold_royalty hsale r hr hty, coll_bid hm, (Prod.mk.inj hkey).1]
    · simp [setBidEvent] at hty
  | acceptBid coll tok bidder finder bid sale es hb hsale =>
    refine ⟨⟨_, List.getLast?_concat, ?_⟩, fun r hr hty => ?_⟩
    · simp [Told, acceptBidEvent, bidNamed, tokenNamed, num, Event.get_mk, readNat_tokStr]
    · rw [List.mem_append, List.mem_singleton] at hr
      rcases hr with hr | rfl
      · exact sold_royalty hsale r hr hty
      · simp [acceptBidEvent] at hty
  | acceptCBid coll tok bidder finder bid sale es hb hsale =>
    refine ⟨⟨_, List.getLast?_concat, ?_⟩, fun r hr hty => ?_⟩
    · simp [Told, acceptCBidEvent, cbidNamed, tokenNamed, num, Event.get_mk, readNat_tokStr]
    · rw [List.mem_append, List.mem_singleton] at hr
      rcases hr with hr | rfl
      · exact sold_royalty hsale r hr hty
      · simp [acceptCBidEvent] at hty
  | setAsk ty coll tok price recipient reserveFor fee expires a burn hden hb ha =>
    subst ha
    refine ⟨⟨_, rfl, ?_⟩, by simp [setAskEvent]⟩
    simp [Told, setAskEvent, tokenNamed, num, saleAttr, Event.get_mk, Event.get_append, Event.get_opt, readNat_tokStr, sale_show]
  | updatePrice coll tok price a hden ha =>
    refine ⟨⟨_, rfl, ?_⟩, by simp [updateAskEvent]⟩
    simp [Told, updateAskEvent, tokenNamed, num, coin, Event.get_mk, readNat_tokStr, readCoin_native hden]
  | setCBid coll expires fee price bid hfunds hbid =>
    subst hbid
    refine ⟨⟨_, rfl, ?_⟩, by simp [setCBidEvent]⟩
    simp [Told, setCBidEvent, cbidNamed, Event.get_mk]
  | syncAsk coll tok a act ha hdiff hact =>
    subst hact
    refine ⟨⟨_, rfl, ?_⟩, by simp [syncEvent]⟩
    simp [Told, syncEvent, tokenNamed, num, flag, Event.get_mk, readNat_tokStr, flag_show]
  | staleAsk coll tok a ex ow ap ha hst hex how hap =>
    refine ⟨⟨_, rfl, ?_⟩, by simp [staleAskEvent]⟩
    simp only [Told]
    refine ⟨?_, ?_, a, ha, ?_, ?_, ?_⟩ <;>
      simp [staleAskEvent, tokenNamed, num, flag, Event.get_mk, readNat_tokStr, flag_show, hex, how, hap]
  | _ =>
    refine ⟨⟨_, rfl, ?_⟩, by
      simp [removeAskEvent, removeBidEvent, rejectBidEvent, removeCBidEvent, staleBidEvent, staleCBidEvent]⟩
    simp [Told, removeAskEvent, removeBidEvent, rejectBidEvent, removeCBidEvent, staleBidEvent, staleCBidEvent, bidNamed,
      cbidNamed, tokenNamed, num, Event.get_mk, Event.get_nil, readNat_tokStr]

/-- **C114** (2) When a hook contract fails, the reply goes through, reports the failure of a hook of that kind and
passes the error on. -/
theorem C114_hooks (k : HookKind) (error : Bytes) :
    ∃ e, replyE (hookReplyId k) error = .ok [e] ∧ action e = some (failureOf k) ∧ e.get "error" = some error := by
  cases k
  all_goals exact ⟨_, rfl, action_mk _ _ _ (by decide +kernel), rfl⟩

end

namespace Sample

/-- The purchase at the end of `Sample.lean`: carol bids on token 1, the royalty is for its collection. -/
example : (∃ e, evs7.getLast? = some e ∧ Told (ctx 1002) s6 carol e buyMsg) ∧
    ∀ r ∈ evs7, r.ty = "royalty-payout" → r.get "collection" = some coll := C114_told r6 buy7
example : (evs7.filter (fun r => decide (r.ty = "royalty-payout"))).length = 1 := by decide +kernel

/-- An operator removes a listing that has expired: the event says so, and that owner and approval are fine. -/
def evsStale : List Event := evs (ctx 2000) oper [] (.removeStaleAsk coll 1) s6
theorem staleRun : executeE P (ctx 2000) oper [] (.removeStaleAsk coll 1) s6 =
    .ok ((run (ctx 2000) oper [] (.removeStaleAsk coll 1) s6).1, (run (ctx 2000) oper [] (.removeStaleAsk coll 1) s6).2,
      evsStale) := erun_eq (by decide +kernel)
example : (∃ e, evsStale.getLast? = some e ∧ Told (ctx 2000) s6 oper e (.removeStaleAsk coll 1)) := (C114_told r6 staleRun).1
example : evsStale.map (fun e => [flag e "expired", flag e "has_owner", flag e "has_approval"]) =
    [[some true, some true, some true]] := by decide +kernel
/-- An operator's removal is told apart from the owner's by the attribute `operator` only. -/
example : (evs (ctx 1002) alice [] (.removeAsk coll 1) s6).map (fun e => (e.ty, e.get "operator")) =
    [("remove-ask", none)] := by decide +kernel

end Sample
end Verif.V1

/-
Facts about the handlers with events: leaving the events out gives the handlers of `Verif.Auction.Model`, and what
state change goes with which event. Helper file, no properties.
-/
import Verif.Auction.Events
import Verif.Auction.Inv

namespace Verif.Auction
open Verif Spec

/-- Leave the events out. -/
def dropEv (x : OutE) : Out := x.map (fun r => (r.1, r.2.1))

theorem dropEv_bind {α : Type} (x : Res α) (f : α → OutE) : dropEv (x >>= f) = x >>= fun a => dropEv (f a) := by
  cases x <;> rfl

theorem dropEv_ok (r : State × List Msg × List Event) : dropEv (.ok r) = .ok (r.1, r.2.1) := rfl
theorem dropEv_error (e : Err) : dropEv (.error e) = .error e := rfl

variable {p : Params}

theorem settleAuctionE_drop (ctx : Ctx) (a : Auction) (c : Config) (ws : List HaltWindow) (msgs : List Msg)
    (evs : List Event) (s : State) :
    dropEv (settleAuctionE p ctx a c ws msgs evs s) = settleAuction p ctx a c ws msgs s := by
  unfold settleAuctionE settleAuction
  cases a.endTime with
  | none => rfl
  | some e =>
    simp only [dropEv_bind]
    cases inHalt ws (secs e) with
    | true => simp only [if_true, dropEv_bind, dropEv_ok]
    | false => simp only [Bool.false_eq_true, if_false, dropEv_bind, dropEv_ok]

theorem bidTimesE_drop (ctx : Ctx) (a : Auction) (c : Config) :
    (bidTimesE ctx a c).map (fun r => (r.1, r.2.1, r.2.2.1)) = bidTimes ctx a c := by
  have hb : ∀ {α β γ : Type} (x : Res α) (f : α → Res β) (g : β → γ), (x >>= f).map g = x >>= fun a => (f a).map g := by
    intro α β γ x f g; cases x <;> rfl
  unfold bidTimesE bidTimes
  cases a.firstBid with
  | none => simp only [hb]; rfl
  | some f => simp only [hb]; rfl

theorem executeBidE_drop (ctx : Ctx) (sender : Addr) (funds : List Coin) (coll : Addr) (tok : Bytes) (s : State) :
    dropEv (executeBidE ctx sender funds coll tok s) = executeBid ctx sender funds coll tok s := by
  unfold executeBidE executeBid
  simp only [dropEv_bind, dropEv_ok, ← bidTimesE_drop]
  congr 1; funext a
  congr 1; funext n
  congr 1; funext u
  congr 1; funext m
  congr 1; funext u
  congr 1; funext u
  cases bidTimesE ctx a s.config <;> rfl

/-- Leaving out the events gives the model. -/
theorem executeE_drop (ctx : Ctx) (sender : Addr) (funds : List Coin) (m : Exec) (s : State) :
    dropEv (executeE p ctx sender funds m s) = execute p ctx sender funds m s := by
  cases m with
  | create coll tok r dur rec =>
    simp only [executeE, execute, executeCreateE, executeCreate, dropEv_bind, dropEv_ok]
  | updateReserve coll tok r =>
    simp only [executeE, execute, executeUpdateReserveE, executeUpdateReserve, dropEv_bind, dropEv_ok]
  | cancel coll tok =>
    simp only [executeE, execute, executeCancelE, executeCancel, dropEv_bind, dropEv_ok]
  | bid coll tok => simp only [executeE, execute, dropEv_bind, executeBidE_drop]
  | settle coll tok =>
    simp only [executeE, execute, executeSettleE, executeSettle, dropEv_bind, settleAuctionE_drop]

theorem settleAllE_drop (ctx : Ctx) (c : Config) (ws : List HaltWindow) : ∀ (as : List Auction) (msgs : List Msg)
    (evs : List Event) (s : State), dropEv (settleAllE p ctx c ws as msgs evs s) = settleAll p ctx c ws as msgs s
  | [], msgs, evs, s => rfl
  | a :: as, msgs, evs, s => by
    have h := settleAuctionE_drop (p := p) ctx a c ws msgs evs s
    unfold settleAllE settleAll
    rw [← h]
    cases settleAuctionE p ctx a c ws msgs evs s with
    | error e => rfl
    | ok r => exact settleAllE_drop ctx c ws as r.2.1 r.2.2 r.1

theorem sudoE_drop (ctx : Ctx) (m : Sudo) (s : State) : dropEv (sudoE p ctx m s) = sudo p ctx m s := by
  cases m with
  | beginBlock =>
    simp only [sudoE, sudo, beginBlockE, beginBlock, dropEv_bind]
    congr 1; funext since
    split
    · cases u64 (secs ctx.time + s.config.haltBuffer) <;> rfl
    · rfl
  | endBlock =>
    simp only [sudoE, sudo, endBlockE, endBlock, dropEv_bind]
    congr 1; funext earliest
    rw [← settleAllE_drop (evs := [endBlockEvent])]
    cases settleAllE p ctx s.config s.windows (dueAuctions ctx s) [] [endBlockEvent] s <;> rfl
  | updateParams u => simp only [sudoE, sudo, dropEv_bind, dropEv_ok]; cases updateParams p u s <;> rfl
  | setMinReserve cs => simp only [sudoE, sudo, dropEv_bind, dropEv_ok]
  | unsetMinReserve ds => simp only [sudoE, sudo, dropEv_bind, dropEv_ok]

theorem executeE_ok {ctx : Ctx} {sender : Addr} {funds : List Coin} {m : Exec} {s s' : State} {msgs : List Msg}
    {evs : List Event} (h : executeE p ctx sender funds m s = .ok (s', msgs, evs)) :
    execute p ctx sender funds m s = .ok (s', msgs) := by
  rw [← executeE_drop, h]; rfl

theorem sudoE_ok {ctx : Ctx} {m : Sudo} {s s' : State} {msgs : List Msg} {evs : List Event}
    (h : sudoE p ctx m s = .ok (s', msgs, evs)) : sudo p ctx m s = .ok (s', msgs) := by
  rw [← sudoE_drop, h]; rfl

theorem executeE_of {ctx : Ctx} {sender : Addr} {funds : List Coin} {m : Exec} {s s' : State} {msgs : List Msg}
    (h : execute p ctx sender funds m s = .ok (s', msgs)) :
    ∃ evs, executeE p ctx sender funds m s = .ok (s', msgs, evs) := by
  rw [← executeE_drop] at h
  generalize executeE p ctx sender funds m s = x at h
  cases x with
  | error e => cases h
  | ok r => obtain ⟨a, b, c⟩ := r; cases h; exact ⟨c, rfl⟩

theorem sudoE_of {ctx : Ctx} {m : Sudo} {s s' : State} {msgs : List Msg}
    (h : sudo p ctx m s = .ok (s', msgs)) : ∃ evs, sudoE p ctx m s = .ok (s', msgs, evs) := by
  rw [← sudoE_drop] at h
  generalize sudoE p ctx m s = x at h
  cases x with
  | error e => cases h
  | ok r => obtain ⟨a, b, c⟩ := r; cases h; exact ⟨c, rfl⟩

/-! ### Which event goes with which change -/

/-- Settling one auction. -/
inductive SettledEv (p : Params) (ctx : Ctx) (a : Auction) (c : Config) (s : State) :
    State → List Msg → Event → Prop where
  | postponed (e' : Nat) (he : a.endTime ≠ none) :
      SettledEv p ctx a c s { s with auctions := s.auctions.insert a.key { a with endTime := some e' } } []
        (postponeEvent a e')
  | sold (h : HighBid) (roy : Option Royalty) (pay : List Msg) (hh : a.highBid = some h)
      (hpay : p.lib.payout h.coin a.fundsRecipient c.fairBurn c.tradingFee roy = .ok pay) :
      SettledEv p ctx a c s { s with auctions := s.auctions.erase a.key }
        (pay ++ [.nft a.collection a.tokenId h.bidder]) (settleEvent a h)

theorem settleE_eff {ctx : Ctx} {a : Auction} {c : Config} {ws : List HaltWindow} {ms msgs : List Msg}
    {es evs : List Event} {s s' : State} (h : settleAuctionE p ctx a c ws ms es s = .ok (s', msgs, evs)) :
    ∃ new ev, msgs = ms ++ new ∧ evs = es ++ [ev] ∧ SettledEv p ctx a c s s' new ev := by
  unfold settleAuctionE at h
  split at h
  · cases h
  case h_2 e he =>
    simp only [bind_ok, ensure_ok] at h
    obtain ⟨_, _, h⟩ := h
    split at h <;> simp only [bind_ok, orErr_ok] at h
    · obtain ⟨e', _, h⟩ := h
      cases h
      exact ⟨[], _, by simp, rfl, .postponed e' (by rw [he]; simp)⟩
    · obtain ⟨hb, hh, roy, _, pay, hpay, h⟩ := h
      cases h
      exact ⟨_, _, List.append_assoc .., rfl, .sold hb roy pay hh hpay⟩

/-- A sequence of settlements. -/
inductive BatchEv (p : Params) (ctx : Ctx) (c : Config) : List Auction → State → State → List Msg → List Event → Prop where
  | nil (s : State) : BatchEv p ctx c [] s s [] []
  | cons {a : Auction} {as : List Auction} {s s1 s' : State} {m1 m2 : List Msg} {e1 : Event} {e2 : List Event}
      (h : SettledEv p ctx a c s s1 m1 e1) (ht : BatchEv p ctx c as s1 s' m2 e2) :
      BatchEv p ctx c (a :: as) s s' (m1 ++ m2) (e1 :: e2)

theorem batchE_eff {ctx : Ctx} {c : Config} {ws : List HaltWindow} : ∀ {as : List Auction} {ms : List Msg}
    {es : List Event} {s s' : State} {msgs : List Msg} {evs : List Event},
    settleAllE p ctx c ws as ms es s = .ok (s', msgs, evs) →
    ∃ new nev, msgs = ms ++ new ∧ evs = es ++ nev ∧ BatchEv p ctx c as s s' new nev
  | [], ms, es, s, s', msgs, evs, h => by
    cases h; exact ⟨[], [], by simp, by simp, .nil _⟩
  | a :: as, ms, es, s, s', msgs, evs, h => by
    unfold settleAllE at h
    rw [bind_ok] at h
    obtain ⟨⟨s1, m1, ev1⟩, h1, h⟩ := h
    obtain ⟨n1, v1, rfl, rfl, e1⟩ := settleE_eff h1
    obtain ⟨n2, v2, rfl, rfl, e2⟩ := batchE_eff h
    exact ⟨n1 ++ n2, v1 :: v2, by simp, by simp, .cons e1 e2⟩

/-- What a successful call did and the event it emitted. -/
inductive EvEff (p : Params) (ctx : Ctx) (sender : Addr) (funds : List Coin) (s : State) :
    Exec → State → List Msg → Event → Prop where
  | create (coll tok : Bytes) (r : Coin) (dur : Nat) (rec : Option Bytes) (fee : List Msg) (a : Auction)
      (hadef : a = ⟨coll, tok, sender, r, dur, none, rec, none, none⟩)
      (hno : s.auctions.get? (coll, tok) = none) (hmin : s.minReserve.get? r.denom ≠ none) :
      EvEff p ctx sender funds s (.create coll tok r dur rec)
        { s with auctions := s.auctions.insert (coll, tok) a } (fee ++ [.nft coll tok ctx.self]) (createEvent a)
  | reserve (coll tok : Bytes) (r : Coin) (a : Auction)
      (ha : s.auctions.get? (coll, tok) = some a) (hb : a.firstBid = none) (hmin : s.minReserve.get? r.denom ≠ none) :
      EvEff p ctx sender funds s (.updateReserve coll tok r)
        { s with auctions := s.auctions.insert a.key { a with reserve := r } } []
        (reserveEvent { a with reserve := r })
  | cancel (coll tok : Bytes) (a : Auction) (ha : s.auctions.get? (coll, tok) = some a) (hb : a.firstBid = none) :
      EvEff p ctx sender funds s (.cancel coll tok) { s with auctions := s.auctions.erase a.key }
        [.nft coll tok a.seller] (cancelEvent a)
  | bid1 (coll tok : Bytes) (a : Auction) (h : HighBid) (e f : Nat)
      (ha : s.auctions.get? (coll, tok) = some a) (hfunds : funds = [h.coin]) (hd : h.coin.denom = a.reserve.denom)
      (hbidder : h.bidder = sender) (hb : a.firstBid = none) :
      EvEff p ctx sender funds s (.bid coll tok)
        { s with auctions := s.auctions.insert a.key { a with
            firstBid := some f, endTime := some e, highBid := some h } } []
        (bidEvent a h [("first_bid", txt "true"), ("auction_end_time", showTime e)])
  | bid2 (coll tok : Bytes) (a : Auction) (h old : HighBid) (e f : Nat)
      (ha : s.auctions.get? (coll, tok) = some a) (hfunds : funds = [h.coin]) (hd : h.coin.denom = a.reserve.denom)
      (hbidder : h.bidder = sender) (hh : a.highBid = some old) :
      EvEff p ctx sender funds s (.bid coll tok)
        { s with auctions := s.auctions.insert a.key { a with
            firstBid := some f, endTime := some e, highBid := some h } }
        [.send old.bidder [old.coin]]
        (bidEvent a h [("first_bid", txt "false"), ("auction_end_time", showTime e),
          ("previous_bidder", old.bidder), ("previous_bid_amount", showCoin old.coin)])
  | settle (coll tok : Bytes) (a : Auction) (s' : State) (msgs : List Msg) (ev : Event)
      (ha : s.auctions.get? (coll, tok) = some a) (h : SettledEv p ctx a s.config s s' msgs ev) :
      EvEff p ctx sender funds s (.settle coll tok) s' msgs ev

theorem executeE_eff {ctx : Ctx} {sender : Addr} {funds : List Coin} {m : Exec} {s s' : State} {msgs : List Msg}
    {evs : List Event} (h : executeE p ctx sender funds m s = .ok (s', msgs, evs)) :
    ∃ ev, evs = [ev] ∧ EvEff p ctx sender funds s m s' msgs ev := by
  cases m with
  | create coll tok r dur rec =>
    simp only [executeE, bind_ok, addrValidate_ok, executeCreateE, ensure_ok] at h
    obtain ⟨_, ⟨hv, rfl⟩, rec', hrec, u1, hown, u2, happ, u3, hno, u4, htr, u5, hres, u6, hdur, fee, hfee, h⟩ := h
    obtain ⟨rfl, hrec'⟩ := maybeAddr_ok hrec
    obtain ⟨min, hmin, hle⟩ := validateReserve_ok hres
    simp only [Except.ok.injEq, Prod.mk.injEq] at h
    obtain ⟨rfl, rfl, rfl⟩ := h
    exact ⟨_, rfl, .create coll tok r dur rec fee _ rfl hno (by rw [hmin]; simp)⟩
  | updateReserve coll tok r =>
    simp only [executeE, bind_ok, addrValidate_ok, executeUpdateReserveE, ensure_ok, nonpayable_ok, orErr_ok] at h
    obtain ⟨_, ⟨hv, rfl⟩, _, hf, a, ha, _, hs, _, hb, _, hres, h⟩ := h
    obtain ⟨min, hmin, hle⟩ := validateReserve_ok hres
    cases h
    exact ⟨_, rfl, .reserve coll tok r a ha hb (by rw [hmin]; simp)⟩
  | cancel coll tok =>
    simp only [executeE, bind_ok, addrValidate_ok, executeCancelE, ensure_ok, nonpayable_ok, orErr_ok] at h
    obtain ⟨_, ⟨hv, rfl⟩, _, hf, a, ha, _, hs, _, hb, h⟩ := h
    cases h
    exact ⟨_, rfl, .cancel coll tok a ha hb⟩
  | bid coll tok =>
    simp only [executeE, bind_ok, addrValidate_ok, executeBidE, ensure_ok, orErr_ok, mustPay_ok] at h
    obtain ⟨_, ⟨hv, rfl⟩, a, ha, n, ⟨hfunds, hpos⟩, _, hs, m, hm, _, hge, _, hend, r, hr, h⟩ := h
    simp only [Except.ok.injEq, Prod.mk.injEq] at h
    obtain ⟨rfl, rfl, rfl⟩ := h
    unfold bidTimesE at hr
    split at hr
    case h_1 hb =>
      rw [bind_ok] at hr
      obtain ⟨e, he, hr⟩ := hr
      cases hr
      exact ⟨_, rfl, .bid1 coll tok a ⟨⟨a.reserve.denom, n⟩, sender⟩ e _ ha hfunds rfl rfl hb⟩
    case h_2 f hb =>
      simp only [bind_ok, orErr_ok, ensure_ok, subChk_ok] at hr
      obtain ⟨hi, hh, _, hz, e, he, left, ⟨_, rfl⟩, e', he', hr⟩ := hr
      cases hr
      exact ⟨_, rfl, .bid2 coll tok a ⟨⟨a.reserve.denom, n⟩, sender⟩ hi e' f ha hfunds rfl rfl hh⟩
  | settle coll tok =>
    simp only [executeE, bind_ok, addrValidate_ok, executeSettleE, nonpayable_ok, orErr_ok] at h
    obtain ⟨_, ⟨hv, rfl⟩, _, hf, a, ha, h⟩ := h
    obtain ⟨new, ev, e1, e2, h'⟩ := settleE_eff h
    rw [List.nil_append] at e1 e2
    subst e1 e2
    exact ⟨ev, rfl, .settle coll tok a s' msgs ev ha h'⟩

/-- Configuration after an update. -/
def updated (u : Update) (c : Config) : Config :=
  { c with
    fairBurn := u.fairBurn.getD c.fairBurn
    tradingFee := u.tradingFee.getD c.tradingFee
    minBidIncrement := u.minBidIncrement.getD c.minBidIncrement
    minDuration := u.minDuration.getD c.minDuration
    extendDuration := u.extendDuration.getD c.extendDuration
    createFee := u.createFee.getD c.createFee
    maxSettle := u.maxSettle.getD c.maxSettle
    haltThreshold := u.haltThreshold.getD c.haltThreshold
    haltBuffer := u.haltBuffer.getD c.haltBuffer
    haltPostpone := u.haltPostpone.getD c.haltPostpone }

/-- What a successful hook did and the events it emitted. -/
inductive SEvEff (p : Params) (ctx : Ctx) (s : State) : Sudo → State → List Msg → List Event → Prop where
  | begin (s' : State) (evs : List Event) (hs : s'.config = s.config ∧ s'.minReserve = s.minReserve ∧ s'.auctions = s.auctions)
      (hev : evs = [] ∨ ∃ w, evs = haltEvents w) : SEvEff p ctx s .beginBlock s' [] evs
  | stop (s' : State) (ws : List HaltWindow) (msgs : List Msg) (evs : List Event)
      (hb : BatchEv p ctx s.config (dueAuctions ctx s) s s' msgs evs) :
      SEvEff p ctx s .endBlock { s' with windows := ws } msgs (endBlockEvent :: evs)
  | params (u : Update) : SEvEff p ctx s (.updateParams u) { s with config := updated u s.config } [] [paramsEvent u]
  | setMin (cs : List Coin) (m : AMap Denom Nat) (h : setMinReserve cs s.minReserve = .ok m) :
      SEvEff p ctx s (.setMinReserve cs) { s with minReserve := m } [] (cs.map setMinEvent)
  | unsetMin (ds : List Denom) (m : AMap Denom Nat) (h : unsetMinReserve ds s.minReserve = .ok m) :
      SEvEff p ctx s (.unsetMinReserve ds) { s with minReserve := m } [] (ds.map unsetMinEvent)

theorem sudoE_eff {ctx : Ctx} {m : Sudo} {s s' : State} {msgs : List Msg} {evs : List Event}
    (h : sudoE p ctx m s = .ok (s', msgs, evs)) : SEvEff p ctx s m s' msgs evs := by
  cases m with
  | beginBlock =>
    simp only [sudoE, beginBlockE, bind_ok, subChk_ok] at h
    obtain ⟨_, ⟨hle, rfl⟩, ws, hws, h⟩ := h
    cases h
    refine .begin _ _ ⟨rfl, rfl, rfl⟩ ?_
    split at hws
    · rw [bind_ok] at hws
      obtain ⟨stop, hs, hws⟩ := hws
      cases hws
      exact .inr ⟨_, rfl⟩
    · cases hws; exact .inl rfl
  | endBlock =>
    simp only [sudoE, endBlockE, bind_ok] at h
    obtain ⟨earliest, he, ⟨s1, m1, v1⟩, hb, h⟩ := h
    cases h
    obtain ⟨new, nev, e1, e2, hb'⟩ := batchE_eff hb
    rw [List.nil_append] at e1
    cases e1; cases e2
    exact .stop s1 _ _ nev hb'
  | updateParams u =>
    simp only [sudoE, updateParams, bind_ok] at h
    obtain ⟨r, ⟨fb, hfb, _, hc, hr⟩, h⟩ := h
    cases hr
    cases h
    have : fb = u.fairBurn.getD s.config.fairBurn := by
      split at hfb
      case h_1 e => cases hfb; rw [e]; rfl
      case h_2 e => rw [addrValidate_ok] at hfb; rw [e]; exact hfb.2.symm
    subst this
    exact .params u
  | setMinReserve cs =>
    simp only [sudoE, bind_ok] at h
    obtain ⟨m, hm, h⟩ := h
    cases h
    exact .setMin cs m hm
  | unsetMinReserve ds =>
    simp only [sudoE, bind_ok] at h
    obtain ⟨m, hm, h⟩ := h
    cases h
    exact .unsetMin ds m hm

end Verif.Auction

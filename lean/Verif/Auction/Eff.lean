/- Inversion of the handlers: what a successful call or hook did. Helper file, no properties. -/
import Verif.Auction.Lib0

namespace Verif.Auction
open Verif Spec

variable {p : Params}

theorem addrValidate_ok {a b : Bytes} : addrValidate p a = .ok b ↔ p.valid a = true ∧ a = b := by
  unfold addrValidate; split <;> simp_all

theorem maybeAddr_ok {a : Option Bytes} {b : Option Addr} (h : maybeAddr p a = .ok b) : a = b ∧ ∀ x, a = some x → p.valid x = true := by
  unfold maybeAddr at h
  split at h
  · cases h; exact ⟨rfl, by simp⟩
  · rw [bind_ok] at h
    obtain ⟨y, hy, h⟩ := h
    rw [addrValidate_ok] at hy
    cases h
    exact ⟨by rw [hy.2], by rintro x ⟨⟩; exact hy.1⟩

theorem plusSeconds_ok {t n e : Nat} : plusSeconds t n = .ok e ↔ t + n * NS ≤ U64MAX ∧ t + n * NS = e := u64_ok

theorem validateReserve_ok {s : State} {c : Coin} {u : Unit} (h : validateReserve s c = .ok u) :
    ∃ m, s.minReserve.get? c.denom = some m ∧ m ≤ c.amount := by
  unfold validateReserve at h
  split at h
  · cases h
  case h_2 m hm => exact ⟨m, hm, ensure_ok.mp h⟩

theorem minBid_none {a : Auction} {i m : Nat} (h : a.minBid i = .ok m) (hn : a.highBid = none) : m = a.reserve.amount := by
  unfold Auction.minBid at h
  rw [hn] at h
  cases h; rfl

theorem minBid_some {a : Auction} {i m : Nat} {b : HighBid} (h : a.minBid i = .ok m) (hb : a.highBid = some b) :
    m = ceilDiv (b.coin.amount * (ONE + i)) ONE := by
  unfold Auction.minBid at h
  rw [hb] at h
  simp only [bind_ok] at h
  obtain ⟨f, hf, h⟩ := h
  rw [u128_ok] at hf
  rw [mulCeil_ok] at h
  rw [← hf.2] at h
  exact h.2.symm

theorem setMinReserve_frame : ∀ {cs : List Coin} {m m' : AMap Denom Nat}, setMinReserve cs m = .ok m' →
    ∀ d n, m.get? d = some n → m'.get? d = some n
  | [], m, m', h, d, n, hd => by cases h; exact hd
  | c :: cs, m, m', h, d, n, hd => by
    unfold setMinReserve at h
    rw [bind_ok] at h
    obtain ⟨_, hn, h⟩ := h
    refine setMinReserve_frame h d n ?_
    rw [AMap.get?_insert]
    split
    case isTrue e => rw [ensure_ok, e, hd] at hn; cases hn
    · exact hd

/-- What settling one auction did. -/
inductive Settled (p : Params) (ctx : Ctx) (a : Auction) (c : Config) (ws : List HaltWindow) (s : State) :
    State → List Msg → Prop where
  | postponed (e e' : Nat) (he : a.endTime = some e) (hle : e ≤ ctx.time) (hin : inHalt ws (secs e) = true)
      (hov : e' ≤ U64MAX) (he' : e' = ctx.time + c.haltPostpone * NS) :
      Settled p ctx a c ws s { s with auctions := s.auctions.insert a.key { a with endTime := some e' } } []
  | sold (e : Nat) (h : HighBid) (roy : Option Royalty) (pay : List Msg) (he : a.endTime = some e) (hle : e ≤ ctx.time)
      (hout : inHalt ws (secs e) = false) (hh : a.highBid = some h) (hroy : p.lib.royalties ctx.q a.collection = .ok roy)
      (hpay : p.lib.payout h.coin a.fundsRecipient c.fairBurn c.tradingFee roy = .ok pay) :
      Settled p ctx a c ws s { s with auctions := s.auctions.erase a.key }
        (pay ++ [.nft a.collection a.tokenId h.bidder])

theorem settle_eff {ctx : Ctx} {a : Auction} {c : Config} {ws : List HaltWindow} {ms : List Msg} {s s' : State}
    {msgs : List Msg} (h : settleAuction p ctx a c ws ms s = .ok (s', msgs)) :
    ∃ new, msgs = ms ++ new ∧ Settled p ctx a c ws s s' new := by
  unfold settleAuction at h
  split at h
  · cases h
  case h_2 e he =>
    rw [bind_ok] at h
    obtain ⟨_, hle, h⟩ := h
    rw [ensure_ok] at hle
    split at h
    case isTrue hin =>
      rw [bind_ok] at h
      obtain ⟨e', he', h⟩ := h
      rw [plusSeconds_ok] at he'
      cases h
      exact ⟨[], by simp, .postponed e e' he hle hin (he'.2 ▸ he'.1) he'.2.symm⟩
    case isFalse hin =>
      simp only [bind_ok, orErr_ok] at h
      obtain ⟨hb, hhb, roy, hroy, pay, hpay, h⟩ := h
      cases h
      exact ⟨pay ++ [.nft a.collection a.tokenId hb.bidder], by simp,
        .sold e hb roy pay he hle (by simpa using hin) hhb hroy hpay⟩

theorem ok_bind {α β : Type} (a : α) (f : α → Res β) : ((Except.ok a : Res α) >>= f) = f a := rfl

theorem settle_postponed {ctx : Ctx} {a : Auction} {c : Config} {ws : List HaltWindow} {ms : List Msg} {s : State}
    {e e' : Nat} (he : a.endTime = some e) (hle : e ≤ ctx.time) (hin : inHalt ws (secs e) = true)
    (h1 : plusSeconds ctx.time c.haltPostpone = .ok e') : settleAuction p ctx a c ws ms s =
      .ok ({ s with auctions := s.auctions.insert a.key { a with endTime := some e' } }, ms ++ []) := by
  unfold settleAuction
  rw [he]
  simp only [ensure_eq hle, hin, h1, if_true, List.append_nil]
  rfl

theorem settle_sold {ctx : Ctx} {a : Auction} {c : Config} {ws : List HaltWindow} {ms : List Msg} {s : State}
    {e : Nat} {h : HighBid} {roy : Option Royalty} {pay : List Msg} (he : a.endTime = some e) (hle : e ≤ ctx.time)
    (hout : inHalt ws (secs e) = false) (hh : a.highBid = some h) (hroy : p.lib.royalties ctx.q a.collection = .ok roy)
    (hpay : p.lib.payout h.coin a.fundsRecipient c.fairBurn c.tradingFee roy = .ok pay) :
    settleAuction p ctx a c ws ms s =
      .ok ({ s with auctions := s.auctions.erase a.key }, ms ++ (pay ++ [.nft a.collection a.tokenId h.bidder])) := by
  unfold settleAuction
  rw [he]
  simp only [ensure_eq hle, ok_bind, hout, Bool.false_eq_true, if_false]
  rw [hh, show orErr (some h) Err.panic = .ok h from rfl, ok_bind, hroy, ok_bind, hpay, ok_bind, List.append_assoc]

theorem plusSeconds_of {t n e : Nat} (hov : e ≤ U64MAX) (he : e = t + n * NS) : plusSeconds t n = .ok e := by
  rw [plusSeconds_ok]; subst he; exact ⟨hov, rfl⟩

theorem settle_of_eff {ctx : Ctx} {a : Auction} {c : Config} {ws : List HaltWindow} {ms : List Msg} {s s' : State}
    {new : List Msg} (h : Settled p ctx a c ws s s' new) : settleAuction p ctx a c ws ms s = .ok (s', ms ++ new) := by
  cases h with
  | postponed e e' he hle hin hov he' => exact settle_postponed he hle hin (plusSeconds_of hov he')
  | sold e hb roy pay he hle hout hh hroy hpay => exact settle_sold he hle hout hh hroy hpay

/-- A sequence of settlements. -/
inductive Batch (p : Params) (ctx : Ctx) (c : Config) (ws : List HaltWindow) : List Auction → State → State → List Msg → Prop where
  | nil (s : State) : Batch p ctx c ws [] s s []
  | cons {a : Auction} {as : List Auction} {s s1 s' : State} {m1 m2 : List Msg} (h : Settled p ctx a c ws s s1 m1)
      (ht : Batch p ctx c ws as s1 s' m2) : Batch p ctx c ws (a :: as) s s' (m1 ++ m2)

theorem batch_eff {ctx : Ctx} {c : Config} {ws : List HaltWindow} : ∀ {as : List Auction} {ms : List Msg} {s s' : State}
    {msgs : List Msg}, settleAll p ctx c ws as ms s = .ok (s', msgs) → ∃ new, msgs = ms ++ new ∧ Batch p ctx c ws as s s' new
  | [], ms, s, s', msgs, h => by
    cases h; exact ⟨[], by simp, .nil _⟩
  | a :: as, ms, s, s', msgs, h => by
    unfold settleAll at h
    rw [bind_ok] at h
    obtain ⟨⟨s1, m1⟩, h1, h⟩ := h
    obtain ⟨n1, rfl, e1⟩ := settle_eff h1
    obtain ⟨n2, rfl, e2⟩ := batch_eff h
    exact ⟨n1 ++ n2, by simp, .cons e1 e2⟩

theorem batch_of_eff {ctx : Ctx} {c : Config} {ws : List HaltWindow} {as : List Auction} {s s' : State} {new : List Msg}
    (h : Batch p ctx c ws as s s' new) : ∀ ms, settleAll p ctx c ws as ms s = .ok (s', ms ++ new) := by
  induction h with
  | nil s => intro ms; simp [settleAll]
  | @cons a as s s1 s' m1 m2 h1 _ ih =>
    intro ms
    unfold settleAll
    rw [settle_of_eff h1]
    have := ih (ms ++ m1)
    simpa [bind, Except.bind] using this

/-- Fee part of `CreateAuction`. -/
def feeMsgs (c : Config) : List Msg := if c.createFee.amount = 0 then [] else [.fairBurn [c.createFee]]

/-- What a successful call did. -/
inductive Eff (p : Params) (ctx : Ctx) (sender : Addr) (funds : List Coin) (s : State) : Exec → State → List Msg → Prop where
  | create (coll tok : Bytes) (r : Coin) (dur : Nat) (rec : Option Bytes) (min : Nat)
      (hv : p.valid coll = true) (hrec : ∀ x, rec = some x → p.valid x = true)
      (hown : p.lib.onlyOwner ctx sender coll tok = .ok ()) (happ : p.lib.hasApproval ctx coll tok = .ok ())
      (hno : s.auctions.get? (coll, tok) = none) (htr : p.lib.onlyTradable ctx coll = .ok ())
      (hmin : s.minReserve.get? r.denom = some min) (hres : min ≤ r.amount)
      (hdur : s.config.minDuration ≤ dur ∧ dur ≤ s.config.maxDuration)
      (hfee : if s.config.createFee.amount = 0 then funds = [] else hasCoins funds s.config.createFee = true) :
      Eff p ctx sender funds s (.create coll tok r dur rec)
        { s with auctions := s.auctions.insert (coll, tok) ⟨coll, tok, sender, r, dur, none, rec, none, none⟩ }
        (feeMsgs s.config ++ [.nft coll tok ctx.self])
  | reserve (coll tok : Bytes) (r : Coin) (a : Auction) (min : Nat) (hv : p.valid coll = true) (hf : funds = [])
      (ha : s.auctions.get? (coll, tok) = some a) (hs : a.seller = sender) (hb : a.firstBid = none)
      (hmin : s.minReserve.get? r.denom = some min) (hres : min ≤ r.amount) :
      Eff p ctx sender funds s (.updateReserve coll tok r)
        { s with auctions := s.auctions.insert a.key { a with reserve := r } } []
  | cancel (coll tok : Bytes) (a : Auction) (hv : p.valid coll = true) (hf : funds = [])
      (ha : s.auctions.get? (coll, tok) = some a) (hs : a.seller = sender) (hb : a.firstBid = none) :
      Eff p ctx sender funds s (.cancel coll tok) { s with auctions := s.auctions.erase a.key } [.nft coll tok a.seller]
  | bid1 (coll tok : Bytes) (a : Auction) (n m e : Nat) (hv : p.valid coll = true)
      (ha : s.auctions.get? (coll, tok) = some a) (hs : a.seller ≠ sender) (hfunds : funds = [⟨a.reserve.denom, n⟩])
      (hpos : 0 < n) (hm : a.minBid s.config.minBidIncrement = .ok m) (hge : m ≤ n)
      (hend : ∀ e, a.endTime = some e → secs ctx.time < secs e)
      (hb : a.firstBid = none) (hov : e ≤ U64MAX) (he : e = ctx.time + a.duration * NS) :
      Eff p ctx sender funds s (.bid coll tok)
        { s with auctions := s.auctions.insert a.key { a with
            firstBid := some ctx.time, endTime := some e, highBid := some ⟨⟨a.reserve.denom, n⟩, sender⟩ } } []
  | bid2 (coll tok : Bytes) (a : Auction) (n m f e e' : Nat) (h : HighBid) (hv : p.valid coll = true)
      (ha : s.auctions.get? (coll, tok) = some a) (hs : a.seller ≠ sender) (hfunds : funds = [⟨a.reserve.denom, n⟩])
      (hpos : 0 < n) (hm : a.minBid s.config.minBidIncrement = .ok m) (hge : m ≤ n)
      (hend : secs ctx.time < secs e) (hb : a.firstBid = some f) (hh : a.highBid = some h) (hz : h.coin.amount ≠ 0)
      (he : a.endTime = some e)
      (he' : if secs e - secs ctx.time < s.config.extendDuration
        then e' ≤ U64MAX ∧ e' = ctx.time + s.config.extendDuration * NS else e' = e) :
      Eff p ctx sender funds s (.bid coll tok)
        { s with auctions := s.auctions.insert a.key { a with
            firstBid := some f, endTime := some e', highBid := some ⟨⟨a.reserve.denom, n⟩, sender⟩ } }
        [.send h.bidder [h.coin]]
  | settle (coll tok : Bytes) (a : Auction) (s' : State) (msgs : List Msg) (hv : p.valid coll = true) (hf : funds = [])
      (ha : s.auctions.get? (coll, tok) = some a) (h : Settled p ctx a s.config s.windows s s' msgs) :
      Eff p ctx sender funds s (.settle coll tok) s' msgs

theorem execute_eff {ctx : Ctx} {sender : Addr} {funds : List Coin} {m : Exec} {s s' : State} {msgs : List Msg}
    (h : execute p ctx sender funds m s = .ok (s', msgs)) : Eff p ctx sender funds s m s' msgs := by
  cases m with
  | create coll tok r dur rec =>
    simp only [execute, bind_ok, addrValidate_ok, executeCreate, ensure_ok] at h
    obtain ⟨_, ⟨hv, rfl⟩, rec', hrec, u1, hown, u2, happ, u3, hno, u4, htr, u5, hres, u6, hdur, fee, hfee, h⟩ := h
    obtain ⟨rfl, hrec'⟩ := maybeAddr_ok hrec
    obtain ⟨min, hmin, hle⟩ := validateReserve_ok hres
    simp only [Except.ok.injEq, Prod.mk.injEq] at h
    obtain ⟨rfl, rfl⟩ := h
    have : fee = feeMsgs s.config ∧
        (if s.config.createFee.amount = 0 then funds = [] else hasCoins funds s.config.createFee = true) := by
      unfold feeMsgs
      split at hfee <;> simp only [bind_ok, nonpayable_ok, ensure_ok] at hfee
      case isTrue hz => obtain ⟨_, h1, h2⟩ := hfee; cases h2; simp [hz, h1]
      case isFalse hz => obtain ⟨_, h1, h2⟩ := hfee; cases h2; simp [hz, h1]
    obtain ⟨rfl, hf⟩ := this
    exact .create coll tok r dur rec min hv hrec' hown happ hno htr hmin hle hdur hf
  | updateReserve coll tok r =>
    simp only [execute, bind_ok, addrValidate_ok, executeUpdateReserve, ensure_ok, nonpayable_ok, orErr_ok] at h
    obtain ⟨_, ⟨hv, rfl⟩, _, hf, a, ha, _, hs, _, hb, _, hres, h⟩ := h
    obtain ⟨min, hmin, hle⟩ := validateReserve_ok hres
    cases h
    exact .reserve coll tok r a min hv hf ha hs hb hmin hle
  | cancel coll tok =>
    simp only [execute, bind_ok, addrValidate_ok, executeCancel, ensure_ok, nonpayable_ok, orErr_ok] at h
    obtain ⟨_, ⟨hv, rfl⟩, _, hf, a, ha, _, hs, _, hb, h⟩ := h
    cases h
    exact .cancel coll tok a hv hf ha hs hb
  | bid coll tok =>
    simp only [execute, bind_ok, addrValidate_ok, executeBid, ensure_ok, orErr_ok, mustPay_ok] at h
    obtain ⟨_, ⟨hv, rfl⟩, a, ha, n, ⟨hfunds, hpos⟩, _, hs, m, hm, _, hge, _, hend, r, hr, h⟩ := h
    rw [hfunds, hasCoins_single] at hge
    simp only [Except.ok.injEq, Prod.mk.injEq] at h
    obtain ⟨rfl, rfl⟩ := h
    unfold bidTimes at hr
    split at hr
    case h_1 hb =>
      rw [bind_ok] at hr
      obtain ⟨e, he, hr⟩ := hr
      rw [plusSeconds_ok] at he
      cases hr
      exact .bid1 coll tok a n m e hv ha hs hfunds hpos hm hge.2 hend hb (he.2 ▸ he.1) he.2.symm
    case h_2 f hb =>
      simp only [bind_ok, orErr_ok, ensure_ok, subChk_ok] at hr
      obtain ⟨hi, hh, _, hz, e, he, left, ⟨_, rfl⟩, e', he', hr⟩ := hr
      cases hr
      refine .bid2 coll tok a n m f e e' hi hv ha hs hfunds hpos hm hge.2 (hend e he) hb hh hz he ?_
      split at he'
      case isTrue hlt =>
        rw [plusSeconds_ok] at he'
        rw [if_pos hlt]; exact ⟨he'.2 ▸ he'.1, he'.2.symm⟩
      case isFalse hlt => rw [if_neg hlt]; cases he'; rfl
  | settle coll tok =>
    simp only [execute, bind_ok, addrValidate_ok, executeSettle, nonpayable_ok, orErr_ok] at h
    obtain ⟨_, ⟨hv, rfl⟩, _, hf, a, ha, h⟩ := h
    obtain ⟨new, e, h⟩ := settle_eff h
    rw [List.nil_append] at e
    subst e
    exact .settle coll tok a s' msgs hv hf ha h

/-- What a successful hook did. -/
inductive SEff (p : Params) (ctx : Ctx) (s : State) : Sudo → State → List Msg → Prop where
  | begin (ws : List HaltWindow) (hle : s.prevBlock ≤ secs ctx.time)
      (hws : if 0 < s.prevBlock ∧ s.config.haltThreshold ≤ secs ctx.time - s.prevBlock
        then ws = s.windows ++ [⟨s.prevBlock, secs ctx.time + s.config.haltBuffer⟩] else ws = s.windows) :
      SEff p ctx s .beginBlock { s with windows := ws, prevBlock := secs ctx.time } []
  | stop (earliest : Option Nat) (s' : State) (msgs : List Msg)
      (hearliest : ∀ a, (dueAuctions ctx s).head? = some a → a.endTime = earliest ∧ earliest ≠ none)
      (hnone : (dueAuctions ctx s).head? = none → earliest = none)
      (hb : Batch p ctx s.config s.windows (dueAuctions ctx s) s s' msgs) :
      SEff p ctx s .endBlock { s' with windows := dropStale s.windows earliest } msgs
  | params (u : Update) (c : Config) (hc : c.validate = .ok ()) (hmax : c.maxDuration = s.config.maxDuration) :
      SEff p ctx s (.updateParams u) { s with config := c } []
  | setMin (cs : List Coin) (m : AMap Denom Nat) (h : setMinReserve cs s.minReserve = .ok m) :
      SEff p ctx s (.setMinReserve cs) { s with minReserve := m } []
  | unsetMin (ds : List Denom) (m : AMap Denom Nat) (h : unsetMinReserve ds s.minReserve = .ok m) :
      SEff p ctx s (.unsetMinReserve ds) { s with minReserve := m } []

theorem sudo_eff {ctx : Ctx} {m : Sudo} {s s' : State} {msgs : List Msg} (h : sudo p ctx m s = .ok (s', msgs)) :
    SEff p ctx s m s' msgs := by
  cases m with
  | beginBlock =>
    simp only [sudo, beginBlock, bind_ok, subChk_ok] at h
    obtain ⟨_, ⟨hle, rfl⟩, ws, hws, h⟩ := h
    cases h
    refine .begin ws hle ?_
    split at hws
    case isTrue hc =>
      rw [bind_ok] at hws
      obtain ⟨stop, hs, hws⟩ := hws
      rw [u64_ok] at hs
      rw [if_pos hc]
      cases hws; rw [hs.2]
    case isFalse hc => rw [if_neg hc]; cases hws; rfl
  | endBlock =>
    simp only [sudo, endBlock, bind_ok] at h
    obtain ⟨earliest, he, ⟨s1, m1⟩, hb, h⟩ := h
    cases h
    obtain ⟨new, e, hb⟩ := batch_eff hb
    rw [List.nil_append] at e
    cases e
    refine .stop earliest s1 _ ?_ ?_ hb
    · intro a ha
      rw [ha] at he
      simp only [bind_ok, orErr_ok] at he
      obtain ⟨e, he, h⟩ := he
      cases h; exact ⟨he, by simp⟩
    · intro hn
      rw [hn] at he
      cases he; rfl
  | updateParams u =>
    simp only [sudo, updateParams, bind_ok] at h
    obtain ⟨fb, _, _, hc, h⟩ := h
    cases h
    exact .params u _ hc rfl
  | setMinReserve cs =>
    simp only [sudo, bind_ok] at h
    obtain ⟨m, hm, h⟩ := h
    cases h
    exact .setMin cs m hm
  | unsetMinReserve ds =>
    simp only [sudo, bind_ok] at h
    obtain ⟨m, hm, h⟩ := h
    cases h
    exact .unsetMin ds m hm

end Verif.Auction

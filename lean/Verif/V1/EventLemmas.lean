/-
Facts about the handlers with events: leaving the events out gives the handlers of `Verif.V1.Model`, and what state
change goes with which events. Helper file, no properties.
-/
import Verif.V1.Events
import Verif.V1.Inv

namespace Verif.V1
open Verif Spec

/-! ### Leaving the events out -/

def dropEv (x : OutE) : Out := x.map (fun r => (r.1, r.2.1))

theorem dropEv_bind {α : Type} (x : Res α) (f : α → OutE) : dropEv (x >>= f) = x >>= fun a => dropEv (f a) := by
  cases x <;> rfl

theorem dropEv_ok (r : State × List Msg × List Event) : dropEv (.ok r) = .ok (r.1, r.2.1) := rfl
theorem dropEv_error (e : Err) : dropEv (.error e) = .error e := rfl

variable {p : Params}

theorem map_bind {α β γ : Type} (x : Res α) (f : α → Res β) (g : β → γ) :
    Except.map g (x >>= f) = x >>= fun a => Except.map g (f a) := by cases x <;> rfl

theorem payoutE_drop (ctx : Ctx) (s : State) (coll : Addr) (payment : Nat) (to : Addr) (finder : Option Addr)
    (fee : Option Nat) : Except.map Prod.fst (payoutE ctx s coll payment to finder fee) = payout ctx s coll payment to finder fee := by
  unfold payoutE payout
  simp only [map_bind]
  congr 1; funext n
  congr 1; funext info
  congr 1; funext ff
  cases parseRoyalties info.royalty with
  | none => simp only [map_bind]; rfl
  | some roy => simp only [map_bind]; rfl

theorem finalizeSaleE_drop (ctx : Ctx) (s : State) (a : Ask) (price : Nat) (buyer : Addr) (finder recipient : Option Addr) :
    Except.map Prod.fst (finalizeSaleE ctx s a price buyer finder recipient) = finalizeSale ctx s a price buyer finder recipient := by
  unfold finalizeSaleE finalizeSale
  rw [map_bind, ← payoutE_drop]
  generalize payoutE ctx s a.collection price (a.fundsRecipient.getD a.seller) finder a.findersFee = x
  cases x <;> rfl

/-- A sale within a handler. -/
theorem sale_drop (ctx : Ctx) (s : State) (a : Ask) (price : Nat) (buyer : Addr) (finder recipient : Option Addr)
    (f : List Msg → State × List Msg) (g : List Msg × List Event → State × List Msg × List Event)
    (h : ∀ x, ((g x).1, (g x).2.1) = f x.1) :
    dropEv (finalizeSaleE ctx s a price buyer finder recipient >>= fun x => .ok (g x)) =
      finalizeSale ctx s a price buyer finder recipient >>= fun x => .ok (f x) := by
  rw [dropEv_bind, ← finalizeSaleE_drop]
  generalize finalizeSaleE ctx s a price buyer finder recipient = x
  cases x with
  | error e => rfl
  | ok r => simp only [dropEv_ok, h]; rfl

theorem executeSetBidE_drop (ctx : Ctx) (sender : Addr) (funds : List Coin) (ty : SaleType) (coll : Addr)
    (tok expires : Nat) (finder : Option Addr) (fee : Option Nat) (recipient : Option Addr) (buyNow : Bool) (s : State) :
    dropEv (executeSetBidE ctx sender funds ty coll tok expires finder fee recipient buyNow s) =
      executeSetBid ctx sender funds coll tok expires finder fee recipient buyNow s := by
  unfold executeSetBidE executeSetBid
  simp only [dropEv_bind]
  congr 1; funext u
  congr 1; funext u
  congr 1; funext price
  congr 1; funext u
  congr 1; funext u
  cases (refundOld coll tok sender s).1.asks.get? (coll, tok) with
  | none => cases buyNow <;> rfl
  | some ask =>
    simp only [dropEv_bind]
    congr 1; funext u
    congr 1; funext u
    congr 1; funext u
    cases ask.saleType with
    | auction => simp only; split <;> rfl
    | fixedPrice =>
      simp only
      split
      · rfl
      split
      · rfl
      · simp only [dropEv_bind]
        congr 1; funext o
        congr 1; funext u
        rw [← dropEv_bind]
        exact sale_drop ctx _ ask price sender finder recipient _ _ (fun _ => rfl)

/-- Leaving out the events gives the model. -/
theorem executeE_drop (ctx : Ctx) (sender : Addr) (funds : List Coin) (m : Exec) (s : State) :
    dropEv (executeE p ctx sender funds m s) = execute p ctx sender funds m s := by
  cases m with
  | setAsk => simp only [executeE, execute, executeSetAskE, executeSetAsk, dropEv_bind, dropEv_ok]
  | removeAsk => simp only [executeE, execute, executeRemoveAskE, executeRemoveAsk, dropEv_bind, dropEv_ok]
  | updateAskPrice => simp only [executeE, execute, executeUpdateAskPriceE, executeUpdateAskPrice, dropEv_bind, dropEv_ok]
  | setBid => simp only [executeE, execute, dropEv_bind, executeSetBidE_drop]
  | buyNow => simp only [executeE, execute, dropEv_bind, executeSetBidE_drop]
  | buyFor => simp only [executeE, execute, dropEv_bind, executeSetBidE_drop]
  | removeBid => simp only [executeE, execute, executeRemoveBidE, executeRemoveBid, dropEv_bind, dropEv_ok]
  | acceptBid =>
    simp only [executeE, execute, executeAcceptBidE, executeAcceptBid, dropEv_bind]
    simp only [← dropEv_bind (finalizeSaleE _ _ _ _ _ _ _)]
    congr 1; funext _; congr 1; funext _; congr 1; funext _; congr 1; funext _; congr 1; funext _; congr 1; funext _
    congr 1; funext _; congr 1; funext _
    exact sale_drop _ _ _ _ _ _ _ _ _ (fun _ => rfl)
  | rejectBid => simp only [executeE, execute, executeRejectBidE, executeRejectBid, dropEv_bind, dropEv_ok]
  | setCollectionBid =>
    simp only [executeE, execute, executeSetCollectionBidE, executeSetCollectionBid, dropEv_bind, dropEv_ok]; rfl
  | removeCollectionBid =>
    simp only [executeE, execute, executeRemoveCollectionBidE, executeRemoveCollectionBid, dropEv_bind, dropEv_ok]
  | acceptCollectionBid =>
    simp only [executeE, execute, executeAcceptCollectionBidE, executeAcceptCollectionBid, dropEv_bind]
    simp only [← dropEv_bind (finalizeSaleE _ _ _ _ _ _ _)]
    congr 1; funext _; congr 1; funext _; congr 1; funext _; congr 1; funext _; congr 1; funext _; congr 1; funext _
    congr 1; funext _; congr 1; funext _
    exact sale_drop _ _ _ _ _ _ _ _ _ (fun _ => rfl)
  | syncAsk => simp only [executeE, execute, executeSyncAskE, executeSyncAsk, dropEv_bind, dropEv_ok]
  | removeStaleAsk => simp only [executeE, execute, executeRemoveStaleAskE, executeRemoveStaleAsk, dropEv_bind, dropEv_ok]
  | removeStaleBid => simp only [executeE, execute, executeRemoveStaleBidE, executeRemoveStaleBid, dropEv_bind, dropEv_ok]
  | removeStaleCollectionBid =>
    simp only [executeE, execute, executeRemoveStaleCollectionBidE, executeRemoveStaleCollectionBid, dropEv_bind, dropEv_ok]

theorem sudoE_drop (ctx : Ctx) (m : Sudo) (s : State) : dropEv (sudoE p ctx m s) = sudo p ctx m s := by
  unfold sudoE
  rw [dropEv_bind]
  cases sudo p ctx m s <;> rfl

theorem executeE_ok {ctx : Ctx} {sender : Addr} {funds : List Coin} {m : Exec} {s s' : State} {msgs : List Msg}
    {evs : List Event} (h : executeE p ctx sender funds m s = .ok (s', msgs, evs)) :
    execute p ctx sender funds m s = .ok (s', msgs) := by
  rw [← executeE_drop, h]; rfl

theorem sudoE_ok {ctx : Ctx} {m : Sudo} {s s' : State} {msgs : List Msg} {evs : List Event}
    (h : sudoE p ctx m s = .ok (s', msgs, evs)) : sudo p ctx m s = .ok (s', msgs) ∧ evs = [sudoEvent m] := by
  refine ⟨by rw [← sudoE_drop, h]; rfl, ?_⟩
  unfold sudoE at h
  rw [bind_ok] at h
  obtain ⟨r, _, h⟩ := h
  cases h; rfl

theorem executeE_of {ctx : Ctx} {sender : Addr} {funds : List Coin} {m : Exec} {s s' : State} {msgs : List Msg}
    (h : execute p ctx sender funds m s = .ok (s', msgs)) :
    ∃ evs, executeE p ctx sender funds m s = .ok (s', msgs, evs) := by
  rw [← executeE_drop] at h
  generalize executeE p ctx sender funds m s = x at h
  cases x with
  | error e => cases h
  | ok r => obtain ⟨a, b, c⟩ := r; cases h; exact ⟨c, rfl⟩

theorem sudoE_of {ctx : Ctx} {m : Sudo} {s s' : State} {msgs : List Msg}
    (h : sudo p ctx m s = .ok (s', msgs)) : ∃ evs, sudoE p ctx m s = .ok (s', msgs, evs) := by
  unfold sudoE
  rw [h]; exact ⟨_, rfl⟩

/-! ### Token ids -/

theorem decimal_eq : ∀ f n, decimal f n = digits f n
  | 0, _ => rfl
  | f + 1, n => by unfold decimal digits; rw [decimal_eq f]

theorem readNat_tokStr (n : Nat) : readNat (tokStr n) = some n := by
  unfold tokStr; rw [decimal_eq]; exact readNat_showNat n

/-! ### Which events go with which change -/

/-- Messages and events of a payout. -/
inductive PaidE (ctx : Ctx) (coll : Addr) (payment : Nat) (to : Addr) (finder : Option Addr) :
    List Msg → List Event → Prop where
  | royalty (info : CollInfo) (roy : Royalty) (n ff z : Nat) (hinfo : ctx.q.collInfo coll = some info)
      (hroy : info.royalty = some roy) (hpos : roy.share ≠ 0) :
      PaidE ctx coll payment to finder (.fairBurn [⟨NATIVE, n⟩] :: finderMsg finder ff ++
        [.send roy.recipient [⟨NATIVE, payment * roy.share / ONE⟩], .send to [⟨NATIVE, z⟩]])
        [royaltyEvent coll (payment * roy.share / ONE) roy.recipient]
  | plain (info : CollInfo) (n ff z : Nat) (hinfo : ctx.q.collInfo coll = some info)
      (hroy : ∀ r, info.royalty = some r → r.share = 0) :
      PaidE ctx coll payment to finder (.fairBurn [⟨NATIVE, n⟩] :: finderMsg finder ff ++ [.send to [⟨NATIVE, z⟩]]) []

theorem payoutE_ok {ctx : Ctx} {s : State} {coll : Addr} {payment : Nat} {to : Addr} {finder : Option Addr}
    {fee : Option Nat} {ms : List Msg} {es : List Event} (h : payoutE ctx s coll payment to finder fee = .ok (ms, es)) :
    PaidE ctx coll payment to finder ms es := by
  simp only [payoutE, bind_ok, orErr_ok, mulFloor_ok] at h
  obtain ⟨n, ⟨_, rfl⟩, info, hinfo, ff, hff, h⟩ := h
  split at h
  case h_1 roy hr =>
    simp only [bind_ok, mulFloor_ok] at h
    obtain ⟨_, ⟨_, rfl⟩, _, _, _, _, _, _, _, _, _, _, z, _, h⟩ := h
    cases h
    unfold parseRoyalties at hr
    split at hr
    case h_2 => cases hr
    case h_1 x hx =>
      split at hr
      · cases hr
      case isFalse hz => cases hr; exact .royalty info _ _ _ _ hinfo hx hz
  case h_2 hr =>
    simp only [bind_ok] at h
    obtain ⟨_, _, _, _, _, _, z, _, h⟩ := h
    cases h
    refine .plain info _ _ _ hinfo ?_
    intro r hx
    rw [hx] at hr
    unfold parseRoyalties at hr
    simp only at hr
    split at hr
    case isTrue hz => exact hz
    · cases hr

/-- Messages and events of a sale. -/
inductive SoldE (ctx : Ctx) (s : State) (a : Ask) (price : Nat) (buyer : Addr) (finder recipient : Option Addr) :
    List Msg → List Event → Prop where
  | mk (pay : List Msg) (es : List Event)
      (h : PaidE ctx a.collection price (a.fundsRecipient.getD a.seller) finder pay es) :
      SoldE ctx s a price buyer finder recipient
        (pay ++ [.nft a.collection (tokStr a.tokenId) (recipient.getD buyer)] ++ saleHook s a buyer)
        (es ++ [saleEvent a price buyer (recipient.getD buyer)])

theorem finalizeSaleE_ok {ctx : Ctx} {s s' : State} {a : Ask} {price : Nat} {buyer : Addr} {finder recipient : Option Addr}
    {r : List Msg × List Event} (hh : s'.saleHooks = s.saleHooks)
    (h : finalizeSaleE ctx s' a price buyer finder recipient = .ok r) :
    SoldE ctx s a price buyer finder recipient r.1 r.2 := by
  simp only [finalizeSaleE, bind_ok] at h
  obtain ⟨pay, h1, h⟩ := h
  cases h
  have : saleHook s' a buyer = saleHook s a buyer := by unfold saleHook; rw [hh]
  simp only [this]
  exact .mk pay.1 pay.2 (payoutE_ok h1)

/-- The sale type named by a message that bids. -/
def saleOf : Exec → SaleType
  | .setBid _ _ _ ty _ _ => ty
  | _ => .fixedPrice

/-- What a successful call did and the events it emitted. -/
inductive EvEff (p : Params) (ctx : Ctx) (sender : Addr) (funds : List Coin) (s : State) :
    Exec → State → List Msg → List Event → Prop where
  | setAsk (ty : SaleType) (coll : Bytes) (tok : Nat) (price : Coin) (recipient reserveFor : Option Bytes)
      (fee : Option Nat) (expires : Nat) (a : Ask) (burn : List Msg) (hden : price.denom = NATIVE)
      (hb : ∀ m ∈ burn, ∃ c, m = .fairBurn c)
      (ha : a = ⟨ty, coll, tok, sender, price.amount, recipient, reserveFor, fee, expires, true⟩) :
      EvEff p ctx sender funds s (.setAsk ty coll tok price recipient reserveFor fee expires)
        { s with asks := s.asks.insert (coll, tok) a } (burn ++ askHook s a .create) [setAskEvent a price]
  | removeAsk (coll : Bytes) (tok : Nat) (a : Ask) (ha : s.asks.get? (coll, tok) = some a) :
      EvEff p ctx sender funds s (.removeAsk coll tok) { s with asks := s.asks.erase (coll, tok) } (askHook s a .delete)
        [removeAskEvent coll tok]
  | updatePrice (coll : Bytes) (tok : Nat) (price : Coin) (a : Ask) (hden : price.denom = NATIVE)
      (ha : s.asks.get? (coll, tok) = some a) :
      EvEff p ctx sender funds s (.updateAskPrice coll tok price)
        { s with asks := s.asks.insert (coll, tok) { a with price := price.amount } }
        (askHook s { a with price := price.amount } .update) [updateAskEvent coll tok price]
  | bidSaved (m : Exec) (b : BidArgs) (price : Nat) (bid : Bid) (hm : bidArgs m = some b)
      (hfunds : funds = [⟨NATIVE, price⟩]) (hbid : bid = ⟨b.coll, b.tok, sender, price, b.fee, b.expires⟩) :
      EvEff p ctx sender funds s m
        { s with bids := (s.bids.erase (b.coll, b.tok, sender)).insert (b.coll, b.tok, sender) bid }
        (refund ((s.bids.get? (b.coll, b.tok, sender)).map Bid.price) sender ++ bidHook s bid .create)
        [setBidEvent (saleOf m) bid]
  | bought (m : Exec) (b : BidArgs) (price : Nat) (bid : Bid) (ask : Ask) (sale : List Msg) (es : List Event)
      (hm : bidArgs m = some b) (hfunds : funds = [⟨NATIVE, price⟩])
      (hbid : bid = ⟨b.coll, b.tok, sender, price, b.fee, b.expires⟩)
      (ha : s.asks.get? (b.coll, b.tok) = some ask) (hprice : ask.price = price)
      (hsale : SoldE ctx s ask price sender b.finder b.recipient sale es) :
      EvEff p ctx sender funds s m
        { s with bids := s.bids.erase (b.coll, b.tok, sender), asks := s.asks.erase (b.coll, b.tok) }
        (refund ((s.bids.get? (b.coll, b.tok, sender)).map Bid.price) sender ++ sale)
        (es ++ [setBidEvent (saleOf m) bid])
  | removeBid (coll : Bytes) (tok : Nat) (bid : Bid) (hb : s.bids.get? (coll, tok, sender) = some bid) :
      EvEff p ctx sender funds s (.removeBid coll tok) { s with bids := s.bids.erase (coll, tok, sender) }
        (.send bid.bidder [⟨NATIVE, bid.price⟩] :: bidHook s bid .delete) [removeBidEvent coll tok sender]
  | acceptBid (coll : Bytes) (tok : Nat) (bidder : Bytes) (finder : Option Bytes) (bid : Bid) (sale : List Msg)
      (es : List Event) (hb : s.bids.get? (coll, tok, bidder) = some bid)
      (hsale : SoldE ctx s (tempAsk sender coll tok bid.price bid.findersFee bid.expiresAt) bid.price bidder finder none
        sale es) :
      EvEff p ctx sender funds s (.acceptBid coll tok bidder finder)
        { s with asks := s.asks.erase (coll, tok), bids := s.bids.erase (coll, tok, bidder) } sale
        (es ++ [acceptBidEvent coll tok bidder bid.price])
  | rejectBid (coll : Bytes) (tok : Nat) (bidder : Bytes) (bid : Bid) (hb : s.bids.get? (coll, tok, bidder) = some bid) :
      EvEff p ctx sender funds s (.rejectBid coll tok bidder) { s with bids := s.bids.erase (coll, tok, bidder) }
        (.send bidder [⟨NATIVE, bid.price⟩] :: bidHook s bid .delete) [rejectBidEvent coll tok bidder bid.price]
  | setCBid (coll : Bytes) (expires : Nat) (fee : Option Nat) (price : Nat) (bid : CBid)
      (hfunds : funds = [⟨NATIVE, price⟩]) (hbid : bid = ⟨coll, sender, price, fee, expires⟩) :
      EvEff p ctx sender funds s (.setCollectionBid coll expires fee)
        { s with cbids := s.cbids.insert (coll, sender) bid }
        ((match s.cbids.get? (coll, sender) with
          | some b => [.send b.bidder [⟨NATIVE, b.price⟩]]
          | none => []) ++ cbidHook s bid .create) [setCBidEvent bid]
  | removeCBid (coll : Bytes) (bid : CBid) (hb : s.cbids.get? (coll, sender) = some bid) :
      EvEff p ctx sender funds s (.removeCollectionBid coll) { s with cbids := s.cbids.erase (coll, sender) }
        (.send bid.bidder [⟨NATIVE, bid.price⟩] :: cbidHook s bid .delete) [removeCBidEvent coll sender]
  | acceptCBid (coll : Bytes) (tok : Nat) (bidder : Bytes) (finder : Option Bytes) (bid : CBid) (sale : List Msg)
      (es : List Event) (hb : s.cbids.get? (coll, bidder) = some bid)
      (hsale : SoldE ctx s (tempAsk sender coll tok bid.price bid.findersFee bid.expiresAt) bid.price bidder finder none
        sale es) :
      EvEff p ctx sender funds s (.acceptCollectionBid coll tok bidder finder)
        { s with cbids := s.cbids.erase (coll, bidder), asks := s.asks.erase (coll, tok) } sale
        (es ++ [acceptCBidEvent coll tok bidder sender bid.price])
  | syncAsk (coll : Bytes) (tok : Nat) (a : Ask) (act : Bool) (ha : s.asks.get? (coll, tok) = some a)
      (hdiff : act ≠ a.isActive) (hact : act = ctx.q.approval coll (tokStr tok)) :
      EvEff p ctx sender funds s (.syncAsk coll tok)
        { s with asks := s.asks.insert (coll, tok) { a with isActive := act } }
        (askHook s { a with isActive := act } .update) [syncEvent coll tok act]
  | staleAsk (coll : Bytes) (tok : Nat) (a : Ask) (ex ow ap : Bool) (ha : s.asks.get? (coll, tok) = some a)
      (hst : ex = true ∨ ow = false ∨ ap = false) (hex : ex = decide (a.expiresAt ≤ ctx.time))
      (how : ow = (ctx.q.ownerOf coll (tokStr tok)).isSome) (hap : ap = ctx.q.approval coll (tokStr tok)) :
      EvEff p ctx sender funds s (.removeStaleAsk coll tok) { s with asks := s.asks.erase (coll, tok) }
        (askHook s a .delete) [staleAskEvent coll tok sender ex ow ap]
  | staleBid (coll : Bytes) (tok : Nat) (bidder : Bytes) (bid : Bid) (r : Nat)
      (hb : s.bids.get? (coll, tok, bidder) = some bid) (hle : r ≤ bid.price) :
      EvEff p ctx sender funds s (.removeStaleBid coll tok bidder) { s with bids := s.bids.erase (coll, tok, bidder) }
        (.send bid.bidder [⟨NATIVE, bid.price - r⟩] :: .send sender [⟨NATIVE, r⟩] :: bidHook s bid .delete)
        [staleBidEvent coll tok bidder sender r]
  | staleCBid (coll bidder : Bytes) (bid : CBid) (r : Nat)
      (hb : s.cbids.get? (coll, bidder) = some bid) (hle : r ≤ bid.price) :
      EvEff p ctx sender funds s (.removeStaleCollectionBid coll bidder) { s with cbids := s.cbids.erase (coll, bidder) }
        (.send bid.bidder [⟨NATIVE, bid.price - r⟩] :: .send sender [⟨NATIVE, r⟩] :: cbidHook s bid .delete)
        [staleCBidEvent coll bidder sender r]

theorem setBidE_eff {ctx : Ctx} {sender : Addr} {funds : List Coin} {m : Exec} {b : BidArgs} {s s' : State}
    {msgs : List Msg} {evs : List Event} (hm : bidArgs m = some b)
    (h : executeSetBidE ctx sender funds (saleOf m) b.coll b.tok b.expires b.finder b.fee b.recipient b.buyNow s =
      .ok (s', msgs, evs)) : EvEff p ctx sender funds s m s' msgs evs := by
  simp only [executeSetBidE, bind_ok, ensure_ok, mustPay_ok] at h
  obtain ⟨_, _, _, _, price, ⟨hfunds, hpos⟩, _, _, _, _, h⟩ := h
  rw [refundOld_eq] at h
  split at h
  case h_1 ask ha =>
    simp only [bind_ok, ensure_ok] at h
    obtain ⟨_, _, _, _, _, _, h⟩ := h
    split at h
    case h_1 hty =>
      split at h
      · cases h
      case isFalse h1 =>
        split at h
        case isTrue h2 => cases h; exact .bidSaved m b price _ hm hfunds rfl
        case isFalse h2 =>
          simp only [bind_ok, orErr_ok, ensure_ok] at h
          obtain ⟨owner, ho, _, rfl, sale, hs, h⟩ := h
          cases h
          exact .bought m b price _ ask sale.1 sale.2 hm hfunds rfl ha (by omega) (finalizeSaleE_ok (s := s) rfl hs)
    case h_2 hty =>
      split at h
      · cases h
      case isFalse h1 => cases h; exact .bidSaved m b price _ hm hfunds rfl
  case h_2 ha =>
    split at h
    · cases h
    case isFalse hb => cases h; exact .bidSaved m b price _ hm hfunds rfl

theorem executeE_eff {ctx : Ctx} {sender : Addr} {funds : List Coin} {m : Exec} {s s' : State} {msgs : List Msg}
    {evs : List Event} (h : executeE p ctx sender funds m s = .ok (s', msgs, evs)) :
    EvEff p ctx sender funds s m s' msgs evs := by
  cases m with
  | setAsk ty coll tok price recipient reserveFor fee expires =>
    simp only [executeE, bind_ok, addrValidate_ok, executeSetAskE, ensure_ok] at h
    obtain ⟨_, ⟨hv, rfl⟩, rec', hrec, res', hres', _, hpv, _, _, _, _, _, _, _, _, _, _, paid, _, _, _, _, _, _, _, h⟩ := h
    obtain ⟨rfl, _⟩ := maybeAddr_ok hrec
    obtain ⟨rfl, _⟩ := maybeAddr_ok hres'
    obtain ⟨h1, h2, h3⟩ := priceValidate_ok hpv
    cases h
    refine .setAsk ty coll tok price recipient reserveFor fee expires _ _ h2 ?_ rfl
    intro m hm
    split at hm
    · simp only [List.mem_singleton] at hm; exact ⟨_, hm⟩
    · cases hm
  | removeAsk coll tok =>
    simp only [executeE, bind_ok, addrValidate_ok, executeRemoveAskE, orErr_ok] at h
    obtain ⟨_, ⟨hv, rfl⟩, _, hf, _, hown, a, ha, h⟩ := h
    cases h
    exact .removeAsk coll tok a ha
  | updateAskPrice coll tok price =>
    simp only [executeE, bind_ok, addrValidate_ok, executeUpdateAskPriceE, orErr_ok] at h
    obtain ⟨_, ⟨hv, rfl⟩, _, hf, _, hown, _, hpv, a, ha, _, hact, _, hlive, h⟩ := h
    obtain ⟨h1, h2, h3⟩ := priceValidate_ok hpv
    cases h
    exact .updatePrice coll tok price a h2 ha
  | setBid coll tok expires ty finder fee =>
    simp only [executeE, bind_ok, addrValidate_ok] at h
    obtain ⟨_, ⟨hv, rfl⟩, _, hfin, h⟩ := h
    obtain ⟨rfl, _⟩ := maybeAddr_ok hfin
    exact setBidE_eff (b := ⟨coll, tok, expires, finder, fee, none, false⟩) rfl h
  | buyNow coll tok expires finder fee =>
    simp only [executeE, bind_ok, addrValidate_ok] at h
    obtain ⟨_, ⟨hv, rfl⟩, _, hfin, h⟩ := h
    obtain ⟨rfl, _⟩ := maybeAddr_ok hfin
    exact setBidE_eff (b := ⟨coll, tok, expires, finder, fee, none, true⟩) rfl h
  | buyFor coll tok expires finder fee recipient =>
    simp only [executeE, bind_ok, addrValidate_ok] at h
    obtain ⟨_, ⟨hv, rfl⟩, _, hfin, _, ⟨_, rfl⟩, h⟩ := h
    obtain ⟨rfl, _⟩ := maybeAddr_ok hfin
    exact setBidE_eff (b := ⟨coll, tok, expires, finder, fee, some recipient, true⟩) rfl h
  | removeBid coll tok =>
    simp only [executeE, bind_ok, addrValidate_ok, executeRemoveBidE, orErr_ok] at h
    obtain ⟨_, ⟨hv, rfl⟩, _, hf, bid, hb, h⟩ := h
    cases h
    exact .removeBid coll tok bid hb
  | acceptBid coll tok bidder finder =>
    simp only [executeE, bind_ok, addrValidate_ok, executeAcceptBidE, orErr_ok] at h
    obtain ⟨_, ⟨hv, rfl⟩, _, ⟨_, rfl⟩, _, hfin, _, hf, _, hown, _, htr, bid, hb, _, hlive, sale, hs, h⟩ := h
    obtain ⟨rfl, _⟩ := maybeAddr_ok hfin
    cases h
    exact .acceptBid coll tok bidder finder bid _ _ hb (finalizeSaleE_ok (s := s) rfl hs)
  | rejectBid coll tok bidder =>
    simp only [executeE, bind_ok, addrValidate_ok, executeRejectBidE, orErr_ok] at h
    obtain ⟨_, ⟨hv, rfl⟩, _, ⟨_, rfl⟩, _, hf, _, hown, bid, hb, h⟩ := h
    cases h
    exact .rejectBid coll tok bidder bid hb
  | setCollectionBid coll expires fee =>
    simp only [executeE, bind_ok, addrValidate_ok, executeSetCollectionBidE, mustPay_ok] at h
    obtain ⟨_, ⟨hv, rfl⟩, price, ⟨hfunds, hpos⟩, _, hmin, _, hexp, _, hfee, h⟩ := h
    simp only [Except.ok.injEq, Prod.mk.injEq] at h
    obtain ⟨rfl, rfl, rfl⟩ := h
    exact .setCBid coll expires fee price _ hfunds rfl
  | removeCollectionBid coll =>
    simp only [executeE, bind_ok, addrValidate_ok, executeRemoveCollectionBidE, orErr_ok] at h
    obtain ⟨_, ⟨hv, rfl⟩, _, hf, bid, hb, h⟩ := h
    cases h
    exact .removeCBid coll bid hb
  | acceptCollectionBid coll tok bidder finder =>
    simp only [executeE, bind_ok, addrValidate_ok, executeAcceptCollectionBidE, orErr_ok] at h
    obtain ⟨_, ⟨hv, rfl⟩, _, ⟨_, rfl⟩, _, hfin, _, hf, _, hown, _, htr, bid, hb, _, hlive, sale, hs, h⟩ := h
    obtain ⟨rfl, _⟩ := maybeAddr_ok hfin
    cases h
    exact .acceptCBid coll tok bidder finder bid _ _ hb (finalizeSaleE_ok (s := s) rfl hs)
  | syncAsk coll tok =>
    simp only [executeE, bind_ok, addrValidate_ok, executeSyncAskE, orErr_ok, ensure_ok] at h
    obtain ⟨_, ⟨hv, rfl⟩, _, hf, _, hop, a, ha, _, hd, h⟩ := h
    cases h
    exact .syncAsk coll tok a _ ha hd rfl
  | removeStaleAsk coll tok =>
    simp only [executeE, bind_ok, addrValidate_ok, executeRemoveStaleAskE, orErr_ok, ensure_ok] at h
    obtain ⟨_, ⟨hv, rfl⟩, _, hf, _, hop, a, ha, _, hd, h⟩ := h
    cases h
    refine .staleAsk coll tok a _ _ _ ha ?_ rfl rfl rfl
    by_cases h1 : a.expiresAt ≤ ctx.time
    · exact .inl (decide_eq_true h1)
    · right
      cases ho : (ctx.q.ownerOf coll (tokStr tok)).isSome with
      | false => exact .inl rfl
      | true =>
        right
        cases hap : ctx.q.approval coll (tokStr tok) with
        | false => rfl
        | true => exact absurd ⟨ho, hap, h1⟩ hd
  | removeStaleBid coll tok bidder =>
    simp only [executeE, bind_ok, addrValidate_ok, executeRemoveStaleBidE, orErr_ok, mulFloor_ok, subChk_ok] at h
    obtain ⟨_, ⟨hv, rfl⟩, _, ⟨_, rfl⟩, _, hf, _, hop, bid, hb, _, hst, _, ⟨_, rfl⟩, _, ⟨hle, rfl⟩, h⟩ := h
    cases h
    exact .staleBid coll tok bidder bid _ hb hle
  | removeStaleCollectionBid coll bidder =>
    simp only [executeE, bind_ok, addrValidate_ok, executeRemoveStaleCollectionBidE, orErr_ok, mulFloor_ok, subChk_ok] at h
    obtain ⟨_, ⟨hv, rfl⟩, _, ⟨_, rfl⟩, _, hf, _, hop, bid, hb, _, hst, _, ⟨_, rfl⟩, _, ⟨hle, rfl⟩, h⟩ := h
    cases h
    exact .staleCBid coll bidder bid _ hb hle

end Verif.V1

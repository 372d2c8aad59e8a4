/- Inversion of the handlers: what a successful call did. Helper file, no properties. -/
import Verif.V1.Spec

namespace Verif.V1
open Verif Spec

variable {p : Params}

theorem addrValidate_ok {a b : Bytes} : addrValidate p a = .ok b ↔ p.valid a = true ∧ a = b := by
  unfold addrValidate; split <;> simp_all

theorem maybeAddr_ok {a : Option Bytes} {b : Option Addr} (h : maybeAddr p a = .ok b) : a = b ∧ ∀ x, a = some x → p.valid x = true := by
  unfold maybeAddr at h
  split at h
  · cases h; exact ⟨rfl, by simp⟩
  · rw [bind_ok] at h
    obtain ⟨y, hy, h⟩ := h
    rw [addrValidate_ok] at hy
    cases h
    exact ⟨by rw [hy.2], by rintro x ⟨⟩; exact hy.1⟩

/-- Value of a decimal string. -/
def decVal (b : Bytes) : Nat := b.foldl (fun a c => a * 10 + (c.toNat - 48)) 0

theorem decimal_val : ∀ {f n : Nat}, n < f → decVal (decimal f n) = n
  | 0, n, h => by omega
  | f + 1, n, h => by
    unfold decimal
    split
    case isTrue hn =>
      have : (UInt8.ofNat (48 + n)).toNat = 48 + n := by
        rw [UInt8.toNat_ofNat']; omega
      simp only [decVal, List.foldl_cons, List.foldl_nil, this]; omega
    case isFalse hn =>
      have h1 := decimal_val (f := f) (n := n / 10) (by omega)
      have h2 : (UInt8.ofNat (48 + n % 10)).toNat = 48 + n % 10 := by
        rw [UInt8.toNat_ofNat']; omega
      unfold decVal at *
      rw [List.foldl_append, h1]
      simp only [List.foldl_cons, List.foldl_nil, h2]
      omega

theorem tokStr_inj {a b : Nat} (h : tokStr a = tokStr b) : a = b := by
  have h1 := decimal_val (Nat.lt_succ_self a)
  have h2 := decimal_val (Nat.lt_succ_self b)
  unfold tokStr at h
  rw [← h1, ← h2, h]

theorem mulFloor_ok {a d r : Nat} : mulFloor a d = .ok r ↔ a * d / ONE ≤ U128MAX ∧ a * d / ONE = r := u128_ok

theorem plusSeconds_ok {t n e : Nat} : plusSeconds t n = .ok e ↔ t + n * NS ≤ U64MAX ∧ t + n * NS = e := u64_ok

theorem isValid_ok {r : ExpiryRange} {now e : Nat} {u : Unit} (h : r.isValid now e = .ok u) :
    now + r.min * NS < e ∧ e ≤ now + r.max * NS ∧ now + r.max * NS ≤ U64MAX := by
  simp only [ExpiryRange.isValid, bind_ok, plusSeconds_ok, ensure_ok] at h
  obtain ⟨lo, ⟨_, rfl⟩, _, h1, hi, ⟨h2, rfl⟩, h3⟩ := h
  exact ⟨h1, h3, h2⟩

theorem feeOk_ok {s : State} {fee : Option Nat} {u : Unit} (h : feeOk s fee = .ok u) :
    ∀ f, fee = some f → percent f ≤ s.params.maxFindersFee := by
  rintro f rfl
  exact ensure_ok.mp h

theorem onlyOwner_ok {ctx : Ctx} {sender coll : Addr} {tok : Nat} {u : Unit} (h : onlyOwner ctx sender coll tok = .ok u) :
    ctx.q.ownerOf coll (tokStr tok) = some sender := by
  simp only [onlyOwner, bind_ok, orErr_ok, ensure_ok] at h
  obtain ⟨o, h1, rfl⟩ := h
  exact h1

theorem onlyTradable_ok {ctx : Ctx} {coll : Addr} {u : Unit} (h : onlyTradable ctx coll = .ok u) :
    ∀ i t, ctx.q.collInfo coll = some i → i.start = some t → t ≤ ctx.time := by
  intro i t hi ht
  simp only [onlyTradable, hi, ht, ensure_ok] at h
  omega

theorem priceValidate_ok {s : State} {c : Coin} {u : Unit} (h : priceValidate s c = .ok u) :
    0 < c.amount ∧ c.denom = NATIVE ∧ s.params.minPrice ≤ c.amount := by
  simp only [priceValidate, bind_ok, ensure_ok] at h
  obtain ⟨_, h1, h2⟩ := h
  exact ⟨by omega, h1.2, h2⟩

theorem checkStale_ok {now t : Nat} {d : Duration} {u : Unit} (h : checkStale now t d = .ok u) :
    ∃ n, d = .time n ∧ t + n * NS ≤ now := by
  unfold checkStale at h
  split at h
  · simp only [bind_ok, plusSeconds_ok, ensure_ok] at h
    obtain ⟨x, ⟨_, rfl⟩, h⟩ := h
    exact ⟨_, rfl, h⟩
  · cases h

/-! ### Payout -/

/-- Network fee of a sale. -/
def netFee (s : State) (payment : Nat) : Nat := payment * s.params.tradingFee / ONE / 100

/-- Finder's fee of a sale. -/
def finFee (payment : Nat) (finder : Option Addr) (fee : Option Nat) : Nat :=
  match finder, fee with
  | some _, some f => payment * percent f / ONE / 100
  | _, _ => 0

theorem findersFee_ok {payment n : Nat} {finder : Option Addr} {fee : Option Nat} (h : findersFee payment finder fee = .ok n) :
    n = finFee payment finder fee := by
  unfold findersFee at h
  split at h
  · split at h
    · simp only [bind_ok, mulFloor_ok] at h
      obtain ⟨x, ⟨_, rfl⟩, h⟩ := h
      cases h; rfl
    · cases h; rfl
  · cases h; rfl

/-- What a successful payout sends. -/
inductive Paid (ctx : Ctx) (s : State) (coll : Addr) (payment : Nat) (to : Addr) (finder : Option Addr) (fee : Option Nat) :
    List Msg → Prop where
  | royalty (info : CollInfo) (roy : Royalty) (hinfo : ctx.q.collInfo coll = some info) (hroy : info.royalty = some roy)
      (hpos : 0 < roy.share) (hone : roy.share ≤ ONE)
      (hfit : netFee s payment + finFee payment finder fee ≤ payment * (ONE - roy.share) / ONE)
      (htot : netFee s payment + finFee payment finder fee + payment * roy.share / ONE ≤ payment) :
      Paid ctx s coll payment to finder fee (.fairBurn [⟨NATIVE, netFee s payment⟩] ::
        finderMsg finder (finFee payment finder fee) ++
        [.send roy.recipient [⟨NATIVE, payment * roy.share / ONE⟩],
         .send to [⟨NATIVE, payment * (ONE - roy.share) / ONE - netFee s payment - finFee payment finder fee⟩]])
  | plain (info : CollInfo) (hinfo : ctx.q.collInfo coll = some info) (hroy : ∀ r, info.royalty = some r → r.share = 0)
      (htot : netFee s payment + finFee payment finder fee ≤ payment) :
      Paid ctx s coll payment to finder fee (.fairBurn [⟨NATIVE, netFee s payment⟩] ::
        finderMsg finder (finFee payment finder fee) ++
        [.send to [⟨NATIVE, payment - netFee s payment - finFee payment finder fee⟩]])

theorem payout_ok {ctx : Ctx} {s : State} {coll : Addr} {payment : Nat} {to : Addr} {finder : Option Addr} {fee : Option Nat}
    {ms : List Msg} (h : payout ctx s coll payment to finder fee = .ok ms) : Paid ctx s coll payment to finder fee ms := by
  simp only [payout, bind_ok, orErr_ok, mulFloor_ok] at h
  obtain ⟨n, ⟨_, rfl⟩, info, hinfo, ff, hff, h⟩ := h
  cases findersFee_ok hff
  split at h
  case h_1 roy hr =>
    simp only [bind_ok, mulFloor_ok, u128_ok, ensure_ok, subChk_ok] at h
    obtain ⟨_, ⟨_, rfl⟩, _, ⟨_, rfl⟩, _, htot, _, ⟨hone, rfl⟩, _, ⟨_, rfl⟩, _, ⟨hx, rfl⟩, _, ⟨hy, rfl⟩, h⟩ := h
    cases h
    unfold parseRoyalties at hr
    split at hr
    case h_2 => cases hr
    case h_1 x hx' =>
      split at hr
      · cases hr
      case isFalse hz =>
        cases hr
        refine .royalty info _ hinfo hx' (by omega) hone ?_ htot
        unfold netFee; omega
  case h_2 hr =>
    simp only [bind_ok, u128_ok, ensure_ok, subChk_ok] at h
    obtain ⟨_, ⟨_, rfl⟩, _, htot, _, ⟨hx, rfl⟩, _, ⟨hy, rfl⟩, h⟩ := h
    cases h
    refine .plain info hinfo ?_ htot
    intro r hx'
    rw [hx'] at hr
    unfold parseRoyalties at hr
    split at hr
    case h_2 h => cases h
    case h_1 y h =>
      cases h
      split at hr
      case isTrue hz => exact hz
      · cases hr

/-- What a successful sale sends. -/
inductive Sold (ctx : Ctx) (s : State) (a : Ask) (price : Nat) (buyer : Addr) (finder recipient : Option Addr) : List Msg → Prop where
  | mk (pay : List Msg) (h : Paid ctx s a.collection price (a.fundsRecipient.getD a.seller) finder a.findersFee pay) :
      Sold ctx s a price buyer finder recipient
        (pay ++ [.nft a.collection (tokStr a.tokenId) (recipient.getD buyer)] ++ saleHook s a buyer)

theorem finalizeSale_ok {ctx : Ctx} {s : State} {a : Ask} {price : Nat} {buyer : Addr} {finder recipient : Option Addr}
    {ms : List Msg} (h : finalizeSale ctx s a price buyer finder recipient = .ok ms) :
    Sold ctx s a price buyer finder recipient ms := by
  simp only [finalizeSale, bind_ok] at h
  obtain ⟨pay, h1, h⟩ := h
  cases h
  exact .mk pay (payout_ok h1)

/-! ### Calls -/

/-- Arguments of the three messages that bid. -/
structure BidArgs where
  coll : Addr
  tok : Nat
  expires : Nat
  finder : Option Addr
  fee : Option Nat
  recipient : Option Addr
  buyNow : Bool

def bidArgs : Exec → Option BidArgs
  | .setBid c t e _ f n => some ⟨c, t, e, f, n, none, false⟩
  | .buyNow c t e f n => some ⟨c, t, e, f, n, none, true⟩
  | .buyFor c t e f n r => some ⟨c, t, e, f, n, some r, true⟩
  | _ => none

/-- Refund of a replaced order. -/
def refund (o : Option Nat) (a : Addr) : List Msg :=
  match o with
  | some n => [.send a [⟨NATIVE, n⟩]]
  | none => []

/-- The temporary ask of a direct acceptance. -/
def tempAsk (sender coll : Addr) (tok price : Nat) (fee : Option Nat) (expires : Nat) : Ask :=
  ⟨.auction, coll, tok, sender, price, some sender, none, fee, expires, true⟩

/-- What a successful call did. -/
inductive Eff (p : Params) (ctx : Ctx) (sender : Addr) (funds : List Coin) (s : State) : Exec → State → List Msg → Prop where
  | setAsk (ty : SaleType) (coll : Bytes) (tok : Nat) (price : Coin) (recipient reserveFor : Option Bytes)
      (fee : Option Nat) (expires paid : Nat) (hv : p.valid coll = true) (hpos : 0 < price.amount) (hden : price.denom = NATIVE)
      (hmin : s.params.minPrice ≤ price.amount) (hmax : price.amount ≤ MAX_FIXED_PRICE_ASK_AMOUNT)
      (hown : ctx.q.ownerOf coll (tokStr tok) = some sender) (htr : onlyTradable ctx coll = .ok ())
      (happ : ctx.q.approval coll (tokStr tok) = true)
      (hexp : s.params.askExpiry.isValid ctx.time expires = .ok ())
      (hpaid : mayPay funds NATIVE = .ok paid) (hlist : paid = s.params.listingFee)
      (hfee : ∀ f, fee = some f → percent f ≤ s.params.maxFindersFee)
      (hres : ∀ r, reserveFor = some r → r ≠ sender ∧ ty = .fixedPrice) :
      Eff p ctx sender funds s (.setAsk ty coll tok price recipient reserveFor fee expires)
        { s with asks := s.asks.insert (coll, tok) ⟨ty, coll, tok, sender, price.amount, recipient, reserveFor, fee, expires, true⟩ }
        ((if 0 < paid then [.fairBurn [⟨NATIVE, paid⟩]] else []) ++
          askHook s ⟨ty, coll, tok, sender, price.amount, recipient, reserveFor, fee, expires, true⟩ .create)
  | removeAsk (coll : Bytes) (tok : Nat) (ask : Ask) (hv : p.valid coll = true) (hf : funds = [])
      (hown : ctx.q.ownerOf coll (tokStr tok) = some sender) (ha : s.asks.get? (coll, tok) = some ask) :
      Eff p ctx sender funds s (.removeAsk coll tok) { s with asks := s.asks.erase (coll, tok) } (askHook s ask .delete)
  | updatePrice (coll : Bytes) (tok : Nat) (price : Coin) (ask : Ask) (hv : p.valid coll = true) (hf : funds = [])
      (hown : ctx.q.ownerOf coll (tokStr tok) = some sender) (hpos : 0 < price.amount) (hden : price.denom = NATIVE)
      (hmin : s.params.minPrice ≤ price.amount) (ha : s.asks.get? (coll, tok) = some ask) (hact : ask.isActive = true)
      (hlive : ctx.time < ask.expiresAt) :
      Eff p ctx sender funds s (.updateAskPrice coll tok price)
        { s with asks := s.asks.insert (coll, tok) { ask with price := price.amount } }
        (askHook s { ask with price := price.amount } .update)
  | bidSaved (m : Exec) (b : BidArgs) (price : Nat) (hm : bidArgs m = some b) (hv : p.valid b.coll = true)
      (hfinder : b.finder ≠ some sender) (hfee : ∀ f, b.fee = some f → percent f ≤ s.params.maxFindersFee)
      (hfunds : funds = [⟨NATIVE, price⟩]) (hpos : 0 < price) (hmin : s.params.minPrice ≤ price)
      (hexp : s.params.bidExpiry.isValid ctx.time b.expires = .ok ())
      (hask : ∀ ask, s.asks.get? (b.coll, b.tok) = some ask → ctx.time < ask.expiresAt ∧ ask.isActive = true ∧
        (∀ r, ask.reserveFor = some r → r = sender) ∧ (ask.saleType = .fixedPrice → price < ask.price) ∧
        (ask.saleType = .auction → ask.price ≤ price))
      (hno : s.asks.get? (b.coll, b.tok) = none → b.buyNow = false) :
      Eff p ctx sender funds s m
        { s with bids := (s.bids.erase (b.coll, b.tok, sender)).insert (b.coll, b.tok, sender) ⟨b.coll, b.tok, sender, price, b.fee, b.expires⟩ }
        (refund ((s.bids.get? (b.coll, b.tok, sender)).map Bid.price) sender ++
          bidHook s ⟨b.coll, b.tok, sender, price, b.fee, b.expires⟩ .create)
  | bought (m : Exec) (b : BidArgs) (price : Nat) (ask : Ask) (sale : List Msg) (hm : bidArgs m = some b)
      (hv : p.valid b.coll = true)
      (hfinder : b.finder ≠ some sender) (hfee : ∀ f, b.fee = some f → percent f ≤ s.params.maxFindersFee)
      (hfunds : funds = [⟨NATIVE, price⟩]) (hpos : 0 < price) (hmin : s.params.minPrice ≤ price)
      (ha : s.asks.get? (b.coll, b.tok) = some ask) (hlive : ctx.time < ask.expiresAt) (hact : ask.isActive = true)
      (hres : ∀ r, ask.reserveFor = some r → r = sender) (hty : ask.saleType = .fixedPrice) (hprice : ask.price = price)
      (hown : ctx.q.ownerOf ask.collection (tokStr ask.tokenId) = some ask.seller)
      (hsale : Sold ctx s ask price sender b.finder b.recipient sale) :
      Eff p ctx sender funds s m
        { s with bids := s.bids.erase (b.coll, b.tok, sender), asks := s.asks.erase (b.coll, b.tok) }
        (refund ((s.bids.get? (b.coll, b.tok, sender)).map Bid.price) sender ++ sale)
  | removeBid (coll : Bytes) (tok : Nat) (bid : Bid) (hv : p.valid coll = true) (hf : funds = [])
      (hb : s.bids.get? (coll, tok, sender) = some bid) :
      Eff p ctx sender funds s (.removeBid coll tok) { s with bids := s.bids.erase (coll, tok, sender) }
        (.send bid.bidder [⟨NATIVE, bid.price⟩] :: bidHook s bid .delete)
  | acceptBid (coll : Bytes) (tok : Nat) (bidder : Bytes) (finder : Option Bytes) (bid : Bid) (sale : List Msg)
      (hv : p.valid coll = true) (hf : funds = []) (hown : ctx.q.ownerOf coll (tokStr tok) = some sender)
      (htr : onlyTradable ctx coll = .ok ()) (hb : s.bids.get? (coll, tok, bidder) = some bid)
      (hlive : ctx.time < bid.expiresAt)
      (hsale : Sold ctx s (tempAsk sender coll tok bid.price bid.findersFee bid.expiresAt) bid.price bidder finder none sale) :
      Eff p ctx sender funds s (.acceptBid coll tok bidder finder)
        { s with asks := s.asks.erase (coll, tok), bids := s.bids.erase (coll, tok, bidder) } sale
  | rejectBid (coll : Bytes) (tok : Nat) (bidder : Bytes) (bid : Bid) (hv : p.valid coll = true) (hf : funds = [])
      (hown : ctx.q.ownerOf coll (tokStr tok) = some sender) (hb : s.bids.get? (coll, tok, bidder) = some bid) :
      Eff p ctx sender funds s (.rejectBid coll tok bidder) { s with bids := s.bids.erase (coll, tok, bidder) }
        (.send bidder [⟨NATIVE, bid.price⟩] :: bidHook s bid .delete)
  | setCBid (coll : Bytes) (expires : Nat) (fee : Option Nat) (price : Nat) (hv : p.valid coll = true)
      (hfunds : funds = [⟨NATIVE, price⟩]) (hpos : 0 < price) (hmin : s.params.minPrice ≤ price)
      (hexp : s.params.bidExpiry.isValid ctx.time expires = .ok ())
      (hfee : ∀ f, fee = some f → percent f ≤ s.params.maxFindersFee) :
      Eff p ctx sender funds s (.setCollectionBid coll expires fee)
        { s with cbids := s.cbids.insert (coll, sender) ⟨coll, sender, price, fee, expires⟩ }
        ((match s.cbids.get? (coll, sender) with
          | some b => [.send b.bidder [⟨NATIVE, b.price⟩]]
          | none => []) ++ cbidHook s ⟨coll, sender, price, fee, expires⟩ .create)
  | removeCBid (coll : Bytes) (bid : CBid) (hv : p.valid coll = true) (hf : funds = [])
      (hb : s.cbids.get? (coll, sender) = some bid) :
      Eff p ctx sender funds s (.removeCollectionBid coll) { s with cbids := s.cbids.erase (coll, sender) }
        (.send bid.bidder [⟨NATIVE, bid.price⟩] :: cbidHook s bid .delete)
  | acceptCBid (coll : Bytes) (tok : Nat) (bidder : Bytes) (finder : Option Bytes) (bid : CBid) (sale : List Msg)
      (hv : p.valid coll = true) (hf : funds = []) (hown : ctx.q.ownerOf coll (tokStr tok) = some sender)
      (htr : onlyTradable ctx coll = .ok ()) (hb : s.cbids.get? (coll, bidder) = some bid)
      (hlive : ctx.time < bid.expiresAt)
      (hsale : Sold ctx s (tempAsk sender coll tok bid.price bid.findersFee bid.expiresAt) bid.price bidder finder none sale) :
      Eff p ctx sender funds s (.acceptCollectionBid coll tok bidder finder)
        { s with cbids := s.cbids.erase (coll, bidder), asks := s.asks.erase (coll, tok) } sale
  | syncAsk (coll : Bytes) (tok : Nat) (ask : Ask) (hv : p.valid coll = true) (hf : funds = [])
      (hop : sender ∈ s.params.operators) (ha : s.asks.get? (coll, tok) = some ask)
      (hdiff : ctx.q.approval coll (tokStr tok) ≠ ask.isActive) :
      Eff p ctx sender funds s (.syncAsk coll tok)
        { s with asks := s.asks.insert (coll, tok) { ask with isActive := ctx.q.approval coll (tokStr tok) } }
        (askHook s { ask with isActive := ctx.q.approval coll (tokStr tok) } .update)
  | staleAsk (coll : Bytes) (tok : Nat) (ask : Ask) (hv : p.valid coll = true) (hf : funds = [])
      (hop : sender ∈ s.params.operators) (ha : s.asks.get? (coll, tok) = some ask)
      (hst : ctx.q.ownerOf coll (tokStr tok) = none ∨ ctx.q.approval coll (tokStr tok) = false ∨ ask.expiresAt ≤ ctx.time) :
      Eff p ctx sender funds s (.removeStaleAsk coll tok) { s with asks := s.asks.erase (coll, tok) } (askHook s ask .delete)
  | staleBid (coll : Bytes) (tok : Nat) (bidder : Bytes) (bid : Bid) (n : Nat) (hv : p.valid coll = true) (hf : funds = [])
      (hop : sender ∈ s.params.operators) (hb : s.bids.get? (coll, tok, bidder) = some bid)
      (hdur : s.params.staleBidDuration = .time n) (hst : bid.expiresAt + n * NS ≤ ctx.time)
      (hle : bid.price * s.params.bidRemovalReward / ONE / 100 ≤ bid.price) :
      Eff p ctx sender funds s (.removeStaleBid coll tok bidder) { s with bids := s.bids.erase (coll, tok, bidder) }
        (.send bid.bidder [⟨NATIVE, bid.price - bid.price * s.params.bidRemovalReward / ONE / 100⟩] ::
          .send sender [⟨NATIVE, bid.price * s.params.bidRemovalReward / ONE / 100⟩] :: bidHook s bid .delete)
  | staleCBid (coll bidder : Bytes) (bid : CBid) (n : Nat) (hv : p.valid coll = true) (hf : funds = [])
      (hop : sender ∈ s.params.operators) (hb : s.cbids.get? (coll, bidder) = some bid)
      (hdur : s.params.staleBidDuration = .time n) (hst : bid.expiresAt + n * NS ≤ ctx.time)
      (hle : bid.price * s.params.bidRemovalReward / ONE / 100 ≤ bid.price) :
      Eff p ctx sender funds s (.removeStaleCollectionBid coll bidder) { s with cbids := s.cbids.erase (coll, bidder) }
        (.send bid.bidder [⟨NATIVE, bid.price - bid.price * s.params.bidRemovalReward / ONE / 100⟩] ::
          .send sender [⟨NATIVE, bid.price * s.params.bidRemovalReward / ONE / 100⟩] :: cbidHook s bid .delete)

theorem Sold.congr {ctx : Ctx} {s s' : State} {a : Ask} {price : Nat} {buyer : Addr} {finder recipient : Option Addr}
    {ms : List Msg} (h : Sold ctx s' a price buyer finder recipient ms)
    (hp : s'.params = s.params) (hh : s'.saleHooks = s.saleHooks) : Sold ctx s a price buyer finder recipient ms := by
  have e : ∀ x, netFee s' x = netFee s x := by intro x; unfold netFee; rw [hp]
  cases h with
  | mk pay h =>
    have hh' : saleHook s' a buyer = saleHook s a buyer := by unfold saleHook; rw [hh]
    rw [hh']
    refine .mk pay ?_
    cases h with
    | royalty info roy h1 h2 h3 h4 h5 h6 => simp only [e] at *; exact .royalty info roy h1 h2 h3 h4 h5 h6
    | plain info h1 h2 h3 => simp only [e] at *; exact .plain info h1 h2 h3

theorem refundOld_eq (coll : Addr) (tok : Nat) (sender : Addr) (s : State) : refundOld coll tok sender s =
    ({ s with bids := s.bids.erase (coll, tok, sender) }, refund ((s.bids.get? (coll, tok, sender)).map Bid.price) sender) := by
  unfold refundOld
  split
  case h_1 b hb => rw [hb]; rfl
  case h_2 hn => rw [hn, AMap.erase_eq_self hn]; rfl

theorem setBid_eff {ctx : Ctx} {sender : Addr} {funds : List Coin} {m : Exec} {b : BidArgs} {s s' : State} {msgs : List Msg}
    (hm : bidArgs m = some b) (hv : p.valid b.coll = true)
    (h : executeSetBid ctx sender funds b.coll b.tok b.expires b.finder b.fee b.recipient b.buyNow s = .ok (s', msgs)) :
    Eff p ctx sender funds s m s' msgs := by
  simp only [executeSetBid, bind_ok, ensure_ok, mustPay_ok] at h
  obtain ⟨_, hfinder, _, hfee, price, ⟨hfunds, hpos⟩, _, hmin, _, hexp, h⟩ := h
  have hfee := feeOk_ok hfee
  rw [refundOld_eq] at h
  split at h
  case h_1 ask ha =>
    simp only [bind_ok, ensure_ok] at h
    obtain ⟨_, hlive, _, hact, _, hres, h⟩ := h
    have hlive' : ctx.time < ask.expiresAt := by omega
    split at h
    case h_1 hty =>
      split at h
      · cases h
      case isFalse h1 =>
        split at h
        case isTrue h2 =>
          cases h
          refine .bidSaved m b price hm hv hfinder hfee hfunds hpos hmin hexp ?_ ?_
          · intro ask' ha'
            rw [ha] at ha'; cases ha'
            exact ⟨hlive', hact, hres, fun _ => h2, fun e => by rw [hty] at e; cases e⟩
          · intro e; rw [ha] at e; cases e
        case isFalse h2 =>
          simp only [bind_ok, orErr_ok, ensure_ok] at h
          obtain ⟨owner, ho, _, rfl, sale, hs, h⟩ := h
          cases h
          exact .bought m b price ask sale hm hv hfinder hfee hfunds hpos hmin ha hlive' hact hres hty (by omega) ho
            ((finalizeSale_ok hs).congr (s := s) rfl rfl)
    case h_2 hty =>
      split at h
      · cases h
      case isFalse h1 =>
        cases h
        refine .bidSaved m b price hm hv hfinder hfee hfunds hpos hmin hexp ?_ ?_
        · intro ask' ha'
          rw [ha] at ha'; cases ha'
          exact ⟨hlive', hact, hres, (fun e => by rw [hty] at e; cases e), fun _ => by omega⟩
        · intro e; rw [ha] at e; cases e
  case h_2 ha =>
    split at h
    · cases h
    case isFalse hb =>
      cases h
      refine .bidSaved m b price hm hv hfinder hfee hfunds hpos hmin hexp ?_ ?_
      · intro ask' ha'; rw [ha] at ha'; cases ha'
      · intro _; simpa using hb

theorem execute_eff {ctx : Ctx} {sender : Addr} {funds : List Coin} {m : Exec} {s s' : State} {msgs : List Msg}
    (h : execute p ctx sender funds m s = .ok (s', msgs)) : Eff p ctx sender funds s m s' msgs := by
  cases m with
  | setAsk ty coll tok price recipient reserveFor fee expires =>
    simp only [execute, bind_ok, addrValidate_ok, executeSetAsk, ensure_ok] at h
    obtain ⟨_, ⟨hv, rfl⟩, rec', hrec, res', hres', _, hpv, _, hmax, _, hown, _, htr, _, happ, _, hexp, paid, hpaid, _, hlist,
      _, hfee, _, hres, h⟩ := h
    obtain ⟨rfl, _⟩ := maybeAddr_ok hrec
    obtain ⟨rfl, _⟩ := maybeAddr_ok hres'
    obtain ⟨h1, h2, h3⟩ := priceValidate_ok hpv
    cases h
    exact .setAsk ty coll tok price recipient reserveFor fee expires paid hv h1 h2 h3 hmax (onlyOwner_ok hown) htr happ hexp
      hpaid hlist (feeOk_ok hfee) hres
  | removeAsk coll tok =>
    simp only [execute, bind_ok, addrValidate_ok, executeRemoveAsk, nonpayable_ok, orErr_ok] at h
    obtain ⟨_, ⟨hv, rfl⟩, _, hf, _, hown, a, ha, h⟩ := h
    cases h
    exact .removeAsk coll tok a hv hf (onlyOwner_ok hown) ha
  | updateAskPrice coll tok price =>
    simp only [execute, bind_ok, addrValidate_ok, executeUpdateAskPrice, nonpayable_ok, orErr_ok, ensure_ok] at h
    obtain ⟨_, ⟨hv, rfl⟩, _, hf, _, hown, _, hpv, a, ha, _, hact, _, hlive, h⟩ := h
    obtain ⟨h1, h2, h3⟩ := priceValidate_ok hpv
    cases h
    exact .updatePrice coll tok price a hv hf (onlyOwner_ok hown) h1 h2 h3 ha hact (by omega)
  | setBid coll tok expires ty finder fee =>
    simp only [execute, bind_ok, addrValidate_ok] at h
    obtain ⟨_, ⟨hv, rfl⟩, _, hfin, h⟩ := h
    obtain ⟨rfl, _⟩ := maybeAddr_ok hfin
    exact setBid_eff (b := ⟨coll, tok, expires, finder, fee, none, false⟩) rfl hv h
  | buyNow coll tok expires finder fee =>
    simp only [execute, bind_ok, addrValidate_ok] at h
    obtain ⟨_, ⟨hv, rfl⟩, _, hfin, h⟩ := h
    obtain ⟨rfl, _⟩ := maybeAddr_ok hfin
    exact setBid_eff (b := ⟨coll, tok, expires, finder, fee, none, true⟩) rfl hv h
  | buyFor coll tok expires finder fee recipient =>
    simp only [execute, bind_ok, addrValidate_ok] at h
    obtain ⟨_, ⟨hv, rfl⟩, _, hfin, _, ⟨_, rfl⟩, h⟩ := h
    obtain ⟨rfl, _⟩ := maybeAddr_ok hfin
    exact setBid_eff (b := ⟨coll, tok, expires, finder, fee, some recipient, true⟩) rfl hv h
  | removeBid coll tok =>
    simp only [execute, bind_ok, addrValidate_ok, executeRemoveBid, nonpayable_ok, orErr_ok] at h
    obtain ⟨_, ⟨hv, rfl⟩, _, hf, bid, hb, h⟩ := h
    cases h
    exact .removeBid coll tok bid hv hf hb
  | acceptBid coll tok bidder finder =>
    simp only [execute, bind_ok, addrValidate_ok, executeAcceptBid, nonpayable_ok, orErr_ok, ensure_ok] at h
    obtain ⟨_, ⟨hv, rfl⟩, _, ⟨_, rfl⟩, _, hfin, _, hf, _, hown, _, htr, bid, hb, _, hlive, sale, hs, h⟩ := h
    obtain ⟨rfl, _⟩ := maybeAddr_ok hfin
    cases h
    exact .acceptBid coll tok bidder finder bid _ hv hf (onlyOwner_ok hown) htr hb (by omega)
      ((finalizeSale_ok hs).congr (s := s) rfl rfl)
  | rejectBid coll tok bidder =>
    simp only [execute, bind_ok, addrValidate_ok, executeRejectBid, nonpayable_ok, orErr_ok] at h
    obtain ⟨_, ⟨hv, rfl⟩, _, ⟨_, rfl⟩, _, hf, _, hown, bid, hb, h⟩ := h
    cases h
    exact .rejectBid coll tok bidder bid hv hf (onlyOwner_ok hown) hb
  | setCollectionBid coll expires fee =>
    simp only [execute, bind_ok, addrValidate_ok, executeSetCollectionBid, mustPay_ok, ensure_ok] at h
    obtain ⟨_, ⟨hv, rfl⟩, price, ⟨hfunds, hpos⟩, _, hmin, _, hexp, _, hfee, h⟩ := h
    simp only [Except.ok.injEq, Prod.mk.injEq] at h
    obtain ⟨rfl, rfl⟩ := h
    exact .setCBid coll expires fee price hv hfunds hpos hmin hexp (feeOk_ok hfee)
  | removeCollectionBid coll =>
    simp only [execute, bind_ok, addrValidate_ok, executeRemoveCollectionBid, nonpayable_ok, orErr_ok] at h
    obtain ⟨_, ⟨hv, rfl⟩, _, hf, bid, hb, h⟩ := h
    cases h
    exact .removeCBid coll bid hv hf hb
  | acceptCollectionBid coll tok bidder finder =>
    simp only [execute, bind_ok, addrValidate_ok, executeAcceptCollectionBid, nonpayable_ok, orErr_ok, ensure_ok] at h
    obtain ⟨_, ⟨hv, rfl⟩, _, ⟨_, rfl⟩, _, hfin, _, hf, _, hown, _, htr, bid, hb, _, hlive, sale, hs, h⟩ := h
    obtain ⟨rfl, _⟩ := maybeAddr_ok hfin
    cases h
    exact .acceptCBid coll tok bidder finder bid _ hv hf (onlyOwner_ok hown) htr hb (by omega)
      ((finalizeSale_ok hs).congr (s := s) rfl rfl)
  | syncAsk coll tok =>
    simp only [execute, bind_ok, addrValidate_ok, executeSyncAsk, nonpayable_ok, orErr_ok, ensure_ok, onlyOperator] at h
    obtain ⟨_, ⟨hv, rfl⟩, _, hf, _, hop, a, ha, _, hd, h⟩ := h
    cases h
    exact .syncAsk coll tok a hv hf hop ha hd
  | removeStaleAsk coll tok =>
    simp only [execute, bind_ok, addrValidate_ok, executeRemoveStaleAsk, nonpayable_ok, orErr_ok, ensure_ok, onlyOperator] at h
    obtain ⟨_, ⟨hv, rfl⟩, _, hf, _, hop, a, ha, _, hd, h⟩ := h
    cases h
    refine .staleAsk coll tok a hv hf hop ha ?_
    cases ho : ctx.q.ownerOf coll (tokStr tok) with
    | none => exact Or.inl rfl
    | some o =>
      right
      cases hap : ctx.q.approval coll (tokStr tok) with
      | false => exact Or.inl rfl
      | true =>
        right
        rw [ho, hap] at hd
        simp only [Option.isSome_some, true_and] at hd
        omega
  | removeStaleBid coll tok bidder =>
    simp only [execute, bind_ok, addrValidate_ok, executeRemoveStaleBid, nonpayable_ok, orErr_ok, ensure_ok, onlyOperator,
      mulFloor_ok, subChk_ok] at h
    obtain ⟨_, ⟨hv, rfl⟩, _, ⟨_, rfl⟩, _, hf, _, hop, bid, hb, _, hst, _, ⟨_, rfl⟩, _, ⟨hle, rfl⟩, h⟩ := h
    obtain ⟨n, h1, h2⟩ := checkStale_ok hst
    cases h
    exact .staleBid coll tok bidder bid n hv hf hop hb h1 h2 hle
  | removeStaleCollectionBid coll bidder =>
    simp only [execute, bind_ok, addrValidate_ok, executeRemoveStaleCollectionBid, nonpayable_ok, orErr_ok, ensure_ok, onlyOperator,
      mulFloor_ok, subChk_ok] at h
    obtain ⟨_, ⟨hv, rfl⟩, _, ⟨_, rfl⟩, _, hf, _, hop, bid, hb, _, hst, _, ⟨_, rfl⟩, _, ⟨hle, rfl⟩, h⟩ := h
    obtain ⟨n, h1, h2⟩ := checkStale_ok hst
    cases h
    exact .staleCBid coll bidder bid n hv hf hop hb h1 h2 hle

end Verif.V1

/-
Inversion of `execute`: every successful call is one of the listed effects. Helper file, no properties.
-/
import Verif.V2.Model
import Verif.Common.SaleLemmas

namespace Verif.V2
open Verif

section
variable (p : Params)

/-- Address strings in the details are valid. -/
def DetOk (d : Details) : Prop := (∀ a, d.recipient = some a → p.valid a = true) ∧ (∀ a, d.finder = some a → p.valid a = true)

/-- The price passes `only_valid_price`. -/
def PriceOk (s : State) (coll : Addr) (price : Coin) : Prop :=
  0 < price.amount ∧ (s.collectionDenoms.get? coll).getD s.config.defaultDenom = price.denom

/-- The state after taking a new nonce. -/
def bump (s : State) : State := { s with nonce := nextNonce s }

/-- Ingredients of a successful `finalize_sale`. -/
structure SaleParts (ctx : Ctx) (ask : Ask) (c : Config) (mb : MatchingBid) (abb : Bool) where
  pf : ProtocolFees
  roy : Option Royalty × List Msg
  fees : List Fee
  payments : List Payment
  hpf : divideProtocolFees c (saleTerms ask mb abb).2.1.isSome (saleTerms ask mb abb).2.2.isSome = .ok pf
  hroy : fetchOrSetRoyalties ctx p.valid c.royaltyRegistry ask.collection = .ok roy
  hfees : saleFees c pf (saleTerms ask mb abb).2.1 (saleTerms ask mb abb).2.2 roy.1 = .ok fees
  hpay : buildPayments (saleTerms ask mb abb).1 ask.assetRecipient fees = .ok payments

/-- Messages of a sale. -/
def SaleParts.msgs {p : Params} {ctx : Ctx} {ask : Ask} {c : Config} {mb : MatchingBid} {abb : Bool}
    (x : SaleParts p ctx ask c mb abb) : List Msg :=
  x.roy.2 ++ payoutMsgs x.payments ++ [transferNft ask.collection ask.tokenId mb.recipient]

/-- State after a sale. -/
def afterSale (s : State) (ask : Ask) (mb : MatchingBid) : State :=
  removeMatching { s with asks := s.asks.erase ask.id } mb

theorem finalizeSale_ok {ctx : Ctx} {s : State} {ask : Ask} {c : Config} {mb : MatchingBid} {abb : Bool}
    {resp : List Msg} {r : State × List Msg} (h : finalizeSale p ctx s ask c mb abb resp = .ok r) :
    ∃ x : SaleParts p ctx ask c mb abb, r = (afterSale s ask mb, resp ++ x.msgs) := by
  unfold finalizeSale at h
  simp only [bind_ok] at h
  obtain ⟨pf, hpf, roy, hroy, fees, hfees, pay, hpay, h⟩ := h
  refine ⟨⟨pf, roy, fees, pay, hpf, hroy, hfees, hpay⟩, ?_⟩
  simp only [Except.ok.injEq] at h
  rw [← h]
  simp [SaleParts.msgs, afterSale, List.append_assoc]

/-- `execute` succeeded with this effect. -/
inductive Eff (ctx : Ctx) (sender : Addr) (funds : List Coin) (s : State) : Exec → State → List Msg → Prop where
  | config (c : Config) (hadm : onlyContractAdmin ctx sender = .ok ())
      (hv : p.valid c.feeManager = true ∧ p.valid c.royaltyRegistry = true) (hc : c.validate = .ok ()) :
      Eff ctx sender funds s (.updateConfig c) { s with config := c } []
  | denom (coll : Bytes) (den : Denom) (hadm : onlyContractAdmin ctx sender = .ok ()) :
      Eff ctx sender funds s (.updateCollectionDenom coll den)
        { s with collectionDenoms := s.collectionDenoms.insert coll den } []
  | setFee (fee : Coin) (hadm : onlyContractAdmin ctx sender = .ok ()) :
      Eff ctx sender funds s (.setListingFee fee)
        { s with listingFees := s.listingFees.insert fee.denom fee.amount } []
  | rmFee (den : Denom) (hadm : onlyContractAdmin ctx sender = .ok ()) :
      Eff ctx sender funds s (.removeListingFee den) { s with listingFees := s.listingFees.erase den } []
  | restAsk (coll tok : Bytes) (d : Details) (pay : Coin)
      (hv : p.valid coll = true) (hd : DetOk p d)
      (hown : onlyOwner ctx sender coll tok = .ok ()) (htr : onlyTradable ctx coll = .ok ())
      (hpr : PriceOk s coll d.price) (hf : funds = [pay]) (hpos : 0 < pay.amount)
      (hfee : s.listingFees.get? pay.denom = some pay.amount)
      (hm : (Ask.new p sender coll tok d).matchWithBid p s = none)
      (hnew : s.asks.get? (askId p coll tok) = none) :
      Eff ctx sender funds s (.setAsk coll tok d)
        { s with asks := s.asks.insert (askId p coll tok) (Ask.new p sender coll tok d) }
        [.send s.config.feeManager [pay], .nft coll tok ctx.self]
  | sellAsk (m : Exec) (coll tok : Bytes) (d : Details) (pay : Coin) (mb : MatchingBid)
      (hm : m = .setAsk coll tok d ∨ m = .sellNft coll tok d)
      (hv : p.valid coll = true) (hd : DetOk p d)
      (hown : onlyOwner ctx sender coll tok = .ok ()) (htr : onlyTradable ctx coll = .ok ())
      (hpr : PriceOk s coll d.price) (hf : funds = [pay]) (hpos : 0 < pay.amount)
      (hfee : s.listingFees.get? pay.denom = some pay.amount)
      (hmb : (Ask.new p sender coll tok d).matchWithBid p s = some mb)
      (x : SaleParts p ctx (Ask.new p sender coll tok d) s.config mb false) :
      Eff ctx sender funds s m (afterSale s (Ask.new p sender coll tok d) mb)
        (.send s.config.feeManager [pay] :: x.msgs)
  | updAsk (id : Bytes) (d : Details) (a : Ask) (hf : funds = []) (hd : DetOk p d)
      (ha : s.asks.get? id = some a) (hcr : sender = a.creator) (hpr : PriceOk s a.collection d.price)
      (hm : ({ a with details := d } : Ask).matchWithBid p s = none) :
      Eff ctx sender funds s (.updateAsk id d)
        { s with asks := s.asks.insert a.id { a with details := d } } []
  | updSell (id : Bytes) (d : Details) (a : Ask) (mb : MatchingBid) (hf : funds = []) (hd : DetOk p d)
      (ha : s.asks.get? id = some a) (hcr : sender = a.creator) (hpr : PriceOk s a.collection d.price)
      (hmb : ({ a with details := d } : Ask).matchWithBid p s = some mb)
      (x : SaleParts p ctx { a with details := d } s.config mb false) :
      Eff ctx sender funds s (.updateAsk id d) (afterSale s { a with details := d } mb) x.msgs
  | rmAsk (id : Bytes) (a : Ask) (hf : funds = [])
      (ha : s.asks.get? id = some a) (hcr : sender = a.creator) :
      Eff ctx sender funds s (.removeAsk id) { s with asks := s.asks.erase a.id }
        [.nft a.collection a.tokenId a.assetRecipient]
  | accAsk (id : Bytes) (d : Details) (a : Ask) (fn left : List Coin) (hd : DetOk p d)
      (hn : nbNormalize funds = .ok fn)
      (ha : s.asks.get? id = some a) (hpr : hasCoins [d.price] a.details.price = true)
      (hl : nbSub fn a.details.price = .ok left)
      (x : SaleParts p ctx a s.config
        (.bid (Bid.new p sender a.collection a.tokenId d ctx.height (nextNonce s))) true) :
      Eff ctx sender funds s (.acceptAsk id d)
        (afterSale (bump s) a (.bid (Bid.new p sender a.collection a.tokenId d ctx.height (nextNonce s))))
        (refund sender left x.msgs)
  | restBid (coll tok : Bytes) (d : Details) (fn left : List Coin)
      (hv : p.valid coll = true) (hd : DetOk p d) (htr : onlyTradable ctx coll = .ok ())
      (hpr : PriceOk s coll d.price) (hn : nbNormalize funds = .ok fn)
      (hm : (Bid.new p sender coll tok d ctx.height (nextNonce s)).matchWithAsk p s = none)
      (hl : nbSub fn d.price = .ok left)
      (hnew : s.bids.get? (Bid.new p sender coll tok d ctx.height (nextNonce s)).id = none) :
      Eff ctx sender funds s (.setBid coll tok d)
        { s with nonce := nextNonce s,
                 bids := s.bids.insert (Bid.new p sender coll tok d ctx.height (nextNonce s)).id
                   (Bid.new p sender coll tok d ctx.height (nextNonce s)) }
        (refund sender left [])
  | buyBid (m : Exec) (coll tok : Bytes) (d : Details) (fn left : List Coin) (a : Ask)
      (hm : m = .setBid coll tok d ∨ m = .buySpecificNft coll tok d)
      (hv : p.valid coll = true) (hd : DetOk p d) (htr : onlyTradable ctx coll = .ok ())
      (hpr : PriceOk s coll d.price) (hn : nbNormalize funds = .ok fn)
      (ha : (Bid.new p sender coll tok d ctx.height (nextNonce s)).matchWithAsk p s = some a)
      (hl : nbSub fn a.details.price = .ok left)
      (x : SaleParts p ctx a s.config (.bid (Bid.new p sender coll tok d ctx.height (nextNonce s))) true) :
      Eff ctx sender funds s m
        (afterSale (bump s) a (.bid (Bid.new p sender coll tok d ctx.height (nextNonce s))))
        (refund sender left x.msgs)
  | updBid (id : Bytes) (d : Details) (b : Bid) (fn fa left : List Coin) (hd : DetOk p d)
      (hb : s.bids.get? id = some b) (hcr : sender = b.creator) (hpr : PriceOk s b.collection d.price)
      (hn : nbNormalize funds = .ok fn) (hadd : nbAdd fn b.details.price = .ok fa)
      (hm : ({ b with details := d } : Bid).matchWithAsk p s = none)
      (hl : nbSub fa d.price = .ok left) :
      Eff ctx sender funds s (.updateBid id d)
        { s with bids := s.bids.insert b.id { b with details := d } } (refund sender left [])
  | updBuy (id : Bytes) (d : Details) (b : Bid) (a : Ask) (fn fa left : List Coin) (hd : DetOk p d)
      (hb : s.bids.get? id = some b) (hcr : sender = b.creator) (hpr : PriceOk s b.collection d.price)
      (hn : nbNormalize funds = .ok fn) (hadd : nbAdd fn b.details.price = .ok fa)
      (ha : ({ b with details := d } : Bid).matchWithAsk p s = some a)
      (hl : nbSub fa a.details.price = .ok left)
      (x : SaleParts p ctx a s.config (.bid { b with details := d }) true) :
      Eff ctx sender funds s (.updateBid id d) (afterSale s a (.bid { b with details := d }))
        (refund sender left x.msgs)
  | rmBid (id : Bytes) (b : Bid) (hf : funds = [])
      (hb : s.bids.get? id = some b) (hcr : sender = b.creator) :
      Eff ctx sender funds s (.removeBid id) { s with bids := s.bids.erase b.id }
        [.send sender [b.details.price]]
  | accBid (id : Bytes) (d : Details) (b : Bid) (a : Ask) (hd : DetOk p d)
      (hb : s.bids.get? id = some b) (hpr : hasCoins [b.details.price] d.price = true)
      (ha : acceptorAsk p ctx sender b.collection b.tokenId d s = .ok a)
      (x : SaleParts p ctx a s.config (.bid b) false) :
      Eff ctx sender funds s (.acceptBid id d) (afterSale s a (.bid b)) x.msgs
  | restCBid (coll : Bytes) (d : Details) (fn left : List Coin)
      (hv : p.valid coll = true) (hd : DetOk p d) (htr : onlyTradable ctx coll = .ok ())
      (hpr : PriceOk s coll d.price) (hn : nbNormalize funds = .ok fn)
      (hm : (CBid.new p sender coll d ctx.height (nextNonce s)).matchWithAsk p s = .ok none)
      (hl : nbSub fn d.price = .ok left)
      (hnew : s.cbids.get? (CBid.new p sender coll d ctx.height (nextNonce s)).id = none) :
      Eff ctx sender funds s (.setCollectionBid coll d)
        { s with nonce := nextNonce s,
                 cbids := s.cbids.insert (CBid.new p sender coll d ctx.height (nextNonce s)).id
                   (CBid.new p sender coll d ctx.height (nextNonce s)) }
        (refund sender left [])
  | buyCBid (m : Exec) (coll : Bytes) (d : Details) (fn left : List Coin) (a : Ask)
      (hm : m = .setCollectionBid coll d ∨ m = .buyCollectionNft coll d)
      (hv : p.valid coll = true) (hd : DetOk p d) (htr : onlyTradable ctx coll = .ok ())
      (hpr : PriceOk s coll d.price) (hn : nbNormalize funds = .ok fn)
      (ha : (CBid.new p sender coll d ctx.height (nextNonce s)).matchWithAsk p s = .ok (some a))
      (hl : nbSub fn a.details.price = .ok left)
      (x : SaleParts p ctx a s.config (.cbid (CBid.new p sender coll d ctx.height (nextNonce s))) true) :
      Eff ctx sender funds s m
        (afterSale (bump s) a (.cbid (CBid.new p sender coll d ctx.height (nextNonce s))))
        (refund sender left x.msgs)
  | updCBid (id : Bytes) (d : Details) (b : CBid) (fn fa left : List Coin) (hd : DetOk p d)
      (hb : s.cbids.get? id = some b) (hcr : sender = b.creator) (hpr : PriceOk s b.collection d.price)
      (hn : nbNormalize funds = .ok fn) (hadd : nbAdd fn b.details.price = .ok fa)
      (hm : ({ b with details := d } : CBid).matchWithAsk p s = .ok none)
      (hl : nbSub fa d.price = .ok left) :
      Eff ctx sender funds s (.updateCollectionBid id d)
        { s with cbids := s.cbids.insert b.id { b with details := d } } (refund sender left [])
  | updCBuy (id : Bytes) (d : Details) (b : CBid) (a : Ask) (fn fa left : List Coin) (hd : DetOk p d)
      (hb : s.cbids.get? id = some b) (hcr : sender = b.creator) (hpr : PriceOk s b.collection d.price)
      (hn : nbNormalize funds = .ok fn) (hadd : nbAdd fn b.details.price = .ok fa)
      (ha : ({ b with details := d } : CBid).matchWithAsk p s = .ok (some a))
      (hl : nbSub fa a.details.price = .ok left)
      (x : SaleParts p ctx a s.config (.cbid { b with details := d }) true) :
      Eff ctx sender funds s (.updateCollectionBid id d) (afterSale s a (.cbid { b with details := d }))
        (refund sender left x.msgs)
  | rmCBid (id : Bytes) (b : CBid) (hf : funds = [])
      (hb : s.cbids.get? id = some b) (hcr : sender = b.creator) :
      Eff ctx sender funds s (.removeCollectionBid id) { s with cbids := s.cbids.erase b.id }
        [.send sender [b.details.price]]
  | accCBid (id tok : Bytes) (d : Details) (b : CBid) (a : Ask) (hd : DetOk p d)
      (hb : s.cbids.get? id = some b) (hpr : hasCoins [b.details.price] d.price = true)
      (ha : acceptorAsk p ctx sender b.collection tok d s = .ok a)
      (x : SaleParts p ctx a s.config (.cbid b) false) :
      Eff ctx sender funds s (.acceptCollectionBid id tok d) (afterSale s a (.cbid b)) x.msgs

variable {p}

theorem addrValidate_ok {a b : Bytes} : addrValidate p a = .ok b ↔ p.valid a = true ∧ a = b := by
  unfold addrValidate; split <;> simp_all

theorem maybeAddr_ok {a b : Option Bytes} :
    maybeAddr p a = .ok b ↔ (∀ x, a = some x → p.valid x = true) ∧ a = b := by
  unfold maybeAddr
  cases a with
  | none => simp
  | some x => simp [bind_ok, addrValidate_ok, and_assoc]

theorem strToAddr_ok {d e : Details} : d.strToAddr p = .ok e ↔ DetOk p d ∧ d = e := by
  unfold Details.strToAddr DetOk
  simp only [bind_ok, maybeAddr_ok, Except.ok.injEq]
  constructor
  · rintro ⟨r, ⟨h1, rfl⟩, f, ⟨h2, rfl⟩, rfl⟩; exact ⟨⟨h1, h2⟩, rfl⟩
  · rintro ⟨⟨h1, h2⟩, rfl⟩; exact ⟨_, ⟨h1, rfl⟩, _, ⟨h2, rfl⟩, rfl⟩

theorem configStr_ok {d e : Config} :
    d.strToAddr p = .ok e ↔ (p.valid d.feeManager = true ∧ p.valid d.royaltyRegistry = true) ∧ d = e := by
  unfold Config.strToAddr
  simp only [bind_ok, addrValidate_ok, Except.ok.injEq]
  constructor
  · rintro ⟨_, ⟨h1, rfl⟩, _, ⟨h2, rfl⟩, rfl⟩; exact ⟨⟨h1, h2⟩, rfl⟩
  · rintro ⟨⟨h1, h2⟩, rfl⟩; exact ⟨_, ⟨h1, rfl⟩, _, ⟨h2, rfl⟩, rfl⟩

theorem onlyValidPrice_ok {s : State} {coll : Addr} {price : Coin} {u : Unit} :
    onlyValidPrice s s.config coll price = .ok u ↔ PriceOk s coll price := by
  unfold onlyValidPrice PriceOk
  simp only [bind_ok, ensure_ok]
  constructor
  · rintro ⟨_, h⟩; exact h
  · intro h; exact ⟨(), h⟩

theorem takePrice_ok {f r : List Coin} {c : Coin} : takePrice f c = .ok r ↔ nbSub f c = .ok r := by
  unfold takePrice
  cases nbSub f c <;> simp

theorem configValidate_ok {c : Config} {u : Unit} :
    c.validate = .ok u ↔ c.protocolFeeBps < 10000 ∧ c.makerRewardBps + c.takerRewardBps < 10000 := by
  unfold Config.validate
  simp only [bind_ok, ensure_ok, u64_ok]
  constructor
  · rintro ⟨_, h1, n, ⟨_, rfl⟩, h2⟩; exact ⟨h1, h2⟩
  · rintro ⟨h1, h2⟩; exact ⟨(), h1, _, ⟨by unfold U64MAX; omega, rfl⟩, h2⟩

theorem setAsk_eff {ctx : Ctx} {sender : Addr} {funds : List Coin} {coll : Addr} {tok : Bytes} {d : Details}
    {now : Bool} {s : State} {r : State × List Msg} (hv : p.valid coll = true) (hd : DetOk p d)
    (h : executeSetAsk p ctx sender funds coll tok d now s = .ok r) :
    Eff p ctx sender funds s (if now then .sellNft coll tok d else .setAsk coll tok d) r.1 r.2 := by
  unfold executeSetAsk at h
  simp only [bind_ok, onlyValidPrice_ok, oneCoin_ok, orErr_ok, ensure_ok] at h
  obtain ⟨_, hown, _, htr, _, hpr, pay, ⟨hf, hpos⟩, fee, hfee, _, rfl, h⟩ := h
  split at h
  case h_1 mb hmb =>
    obtain ⟨x, rfl⟩ := finalizeSale_ok p h
    exact .sellAsk _ coll tok d pay mb (by cases now <;> simp) hv hd hown htr hpr hf hpos hfee hmb x
  case h_2 hm =>
    cases now with
    | true => cases h
    | false =>
      simp only [Bool.false_eq_true, if_false, bind_ok, ensure_ok] at h
      obtain ⟨_, hnew, h⟩ := h
      cases h
      exact .restAsk coll tok d pay hv hd hown htr hpr hf hpos hfee hm hnew

theorem updateAsk_eff {ctx : Ctx} {sender : Addr} {funds : List Coin} {id : Bytes} {d : Details}
    {s : State} {r : State × List Msg} (hd : DetOk p d)
    (h : executeUpdateAsk p ctx sender funds id d s = .ok r) :
    Eff p ctx sender funds s (.updateAsk id d) r.1 r.2 := by
  unfold executeUpdateAsk at h
  simp only [bind_ok, onlyValidPrice_ok, nonpayable_ok, orErr_ok, ensure_ok] at h
  obtain ⟨_, hf, a, ha, _, hcr, _, hpr, h⟩ := h
  split at h
  case h_1 mb hmb =>
    obtain ⟨x, rfl⟩ := finalizeSale_ok p h
    exact .updSell id d a mb hf hd ha hcr hpr hmb x
  case h_2 hm =>
    cases h
    exact .updAsk id d a hf hd ha hcr hpr hm

theorem removeAsk_eff {ctx : Ctx} {sender : Addr} {funds : List Coin} {id : Bytes}
    {s : State} {r : State × List Msg} (h : executeRemoveAsk sender funds id s = .ok r) :
    Eff p ctx sender funds s (.removeAsk id) r.1 r.2 := by
  unfold executeRemoveAsk at h
  simp only [bind_ok, nonpayable_ok, orErr_ok, ensure_ok] at h
  obtain ⟨_, hf, a, ha, _, hcr, h⟩ := h
  cases h
  exact .rmAsk id a hf ha hcr

theorem acceptAsk_eff {ctx : Ctx} {sender : Addr} {funds : List Coin} {id : Bytes} {d : Details}
    {s : State} {r : State × List Msg} (hd : DetOk p d)
    (h : executeAcceptAsk p ctx sender funds id d s = .ok r) :
    Eff p ctx sender funds s (.acceptAsk id d) r.1 r.2 := by
  unfold executeAcceptAsk at h
  simp only [bind_ok, orErr_ok, ensure_ok, takePrice_ok] at h
  obtain ⟨fn, hn, a, ha, _, hpr, left, hl, q, hq, h⟩ := h
  obtain ⟨x, rfl⟩ := finalizeSale_ok p hq
  cases h
  exact .accAsk id d a fn left hd hn ha hpr hl x

theorem bidMatch_bump {s : State} {n : Nat} {b : Bid} :
    b.matchWithAsk p { s with nonce := n } = b.matchWithAsk p s := rfl

theorem cbidMatch_bump {s : State} {n : Nat} {b : CBid} :
    b.matchWithAsk p { s with nonce := n } = b.matchWithAsk p s := rfl

theorem setBid_eff {ctx : Ctx} {sender : Addr} {funds : List Coin} {coll : Addr} {tok : Bytes} {d : Details}
    {now : Bool} {s : State} {r : State × List Msg} (hv : p.valid coll = true) (hd : DetOk p d)
    (h : executeSetBid p ctx sender funds coll tok d now s = .ok r) :
    Eff p ctx sender funds s (if now then .buySpecificNft coll tok d else .setBid coll tok d) r.1 r.2 := by
  unfold executeSetBid at h
  simp only [bind_ok, onlyValidPrice_ok] at h
  obtain ⟨_, htr, _, hpr, fn, hn, h⟩ := h
  split at h
  case h_1 a ha =>
    simp only [bind_ok, takePrice_ok] at h
    obtain ⟨left, hl, q, hq, h⟩ := h
    obtain ⟨x, rfl⟩ := finalizeSale_ok p hq
    cases h
    exact .buyBid _ coll tok d fn left a (by cases now <;> simp) hv hd htr hpr hn ha hl x
  case h_2 hm =>
    cases now with
    | true => cases h
    | false =>
      simp only [Bool.false_eq_true, if_false, bind_ok, ensure_ok, takePrice_ok] at h
      obtain ⟨left, hl, _, hnew, h⟩ := h
      cases h
      exact .restBid coll tok d fn left hv hd htr hpr hn hm hl hnew

theorem updateBid_eff {ctx : Ctx} {sender : Addr} {funds : List Coin} {id : Bytes} {d : Details}
    {s : State} {r : State × List Msg} (hd : DetOk p d)
    (h : executeUpdateBid p ctx sender funds id d s = .ok r) :
    Eff p ctx sender funds s (.updateBid id d) r.1 r.2 := by
  unfold executeUpdateBid at h
  simp only [bind_ok, onlyValidPrice_ok, orErr_ok, ensure_ok] at h
  obtain ⟨b, hb, _, hcr, _, hpr, fn, hn, fa, hadd, h⟩ := h
  split at h
  case h_1 a ha =>
    simp only [bind_ok, takePrice_ok] at h
    obtain ⟨left, hl, q, hq, h⟩ := h
    obtain ⟨x, rfl⟩ := finalizeSale_ok p hq
    cases h
    exact .updBuy id d b a fn fa left hd hb hcr hpr hn hadd ha hl x
  case h_2 hm =>
    simp only [bind_ok, takePrice_ok] at h
    obtain ⟨left, hl, h⟩ := h
    cases h
    exact .updBid id d b fn fa left hd hb hcr hpr hn hadd hm hl

theorem removeBid_eff {ctx : Ctx} {sender : Addr} {funds : List Coin} {id : Bytes}
    {s : State} {r : State × List Msg} (h : executeRemoveBid sender funds id s = .ok r) :
    Eff p ctx sender funds s (.removeBid id) r.1 r.2 := by
  unfold executeRemoveBid at h
  simp only [bind_ok, nonpayable_ok, orErr_ok, ensure_ok] at h
  obtain ⟨_, hf, b, hb, _, hcr, h⟩ := h
  cases h
  exact .rmBid id b hf hb hcr

theorem acceptBid_eff {ctx : Ctx} {sender : Addr} {funds : List Coin} {id : Bytes} {d : Details}
    {s : State} {r : State × List Msg} (hd : DetOk p d)
    (h : executeAcceptBid p ctx sender id d s = .ok r) :
    Eff p ctx sender funds s (.acceptBid id d) r.1 r.2 := by
  unfold executeAcceptBid at h
  simp only [bind_ok, orErr_ok, ensure_ok] at h
  obtain ⟨b, hb, _, hpr, a, ha, h⟩ := h
  obtain ⟨x, rfl⟩ := finalizeSale_ok p h
  exact .accBid id d b a hd hb hpr ha x

theorem setCBid_eff {ctx : Ctx} {sender : Addr} {funds : List Coin} {coll : Addr} {d : Details}
    {now : Bool} {s : State} {r : State × List Msg} (hv : p.valid coll = true) (hd : DetOk p d)
    (h : executeSetCollectionBid p ctx sender funds coll d now s = .ok r) :
    Eff p ctx sender funds s (if now then .buyCollectionNft coll d else .setCollectionBid coll d) r.1 r.2 := by
  unfold executeSetCollectionBid at h
  simp only [bind_ok, onlyValidPrice_ok] at h
  obtain ⟨_, htr, _, hpr, fn, hn, m, hm, h⟩ := h
  cases m with
  | some a =>
    simp only [bind_ok, takePrice_ok] at h
    obtain ⟨left, hl, q, hq, h⟩ := h
    obtain ⟨x, rfl⟩ := finalizeSale_ok p hq
    cases h
    exact .buyCBid _ coll d fn left a (by cases now <;> simp) hv hd htr hpr hn hm hl x
  | none =>
    cases now with
    | true => cases h
    | false =>
      simp only [Bool.false_eq_true, if_false, bind_ok, ensure_ok, takePrice_ok] at h
      obtain ⟨left, hl, _, hnew, h⟩ := h
      cases h
      exact .restCBid coll d fn left hv hd htr hpr hn hm hl hnew

theorem updateCBid_eff {ctx : Ctx} {sender : Addr} {funds : List Coin} {id : Bytes} {d : Details}
    {s : State} {r : State × List Msg} (hd : DetOk p d)
    (h : executeUpdateCollectionBid p ctx sender funds id d s = .ok r) :
    Eff p ctx sender funds s (.updateCollectionBid id d) r.1 r.2 := by
  unfold executeUpdateCollectionBid at h
  simp only [bind_ok, onlyValidPrice_ok, orErr_ok, ensure_ok] at h
  obtain ⟨b, hb, _, hcr, _, hpr, fn, hn, fa, hadd, m, hm, h⟩ := h
  cases m with
  | some a =>
    simp only [bind_ok, takePrice_ok] at h
    obtain ⟨left, hl, q, hq, h⟩ := h
    obtain ⟨x, rfl⟩ := finalizeSale_ok p hq
    cases h
    exact .updCBuy id d b a fn fa left hd hb hcr hpr hn hadd hm hl x
  | none =>
    simp only [bind_ok, takePrice_ok] at h
    obtain ⟨left, hl, h⟩ := h
    cases h
    exact .updCBid id d b fn fa left hd hb hcr hpr hn hadd hm hl

theorem removeCBid_eff {ctx : Ctx} {sender : Addr} {funds : List Coin} {id : Bytes}
    {s : State} {r : State × List Msg} (h : executeRemoveCollectionBid sender funds id s = .ok r) :
    Eff p ctx sender funds s (.removeCollectionBid id) r.1 r.2 := by
  unfold executeRemoveCollectionBid at h
  simp only [bind_ok, nonpayable_ok, orErr_ok, ensure_ok] at h
  obtain ⟨_, hf, b, hb, _, hcr, h⟩ := h
  cases h
  exact .rmCBid id b hf hb hcr

theorem acceptCBid_eff {ctx : Ctx} {sender : Addr} {funds : List Coin} {id tok : Bytes} {d : Details}
    {s : State} {r : State × List Msg} (hd : DetOk p d)
    (h : executeAcceptCollectionBid p ctx sender id tok d s = .ok r) :
    Eff p ctx sender funds s (.acceptCollectionBid id tok d) r.1 r.2 := by
  unfold executeAcceptCollectionBid at h
  simp only [bind_ok, orErr_ok, ensure_ok] at h
  obtain ⟨b, hb, _, hpr, a, ha, h⟩ := h
  obtain ⟨x, rfl⟩ := finalizeSale_ok p h
  exact .accCBid id tok d b a hd hb hpr ha x

/-- Inversion of `execute`. -/
theorem execute_eff {ctx : Ctx} {sender : Addr} {funds : List Coin} {m : Exec} {s s' : State} {msgs : List Msg}
    (h : execute p ctx sender funds m s = .ok (s', msgs)) : Eff p ctx sender funds s m s' msgs := by
  cases m <;> simp only [execute, bind_ok, configStr_ok, addrValidate_ok, strToAddr_ok] at h
  case updateConfig c =>
    obtain ⟨_, ⟨hv, rfl⟩, h⟩ := h
    unfold executeUpdateConfig at h
    simp only [bind_ok] at h
    obtain ⟨_, hadm, _, hc, h⟩ := h
    cases h
    exact .config c hadm hv hc
  case updateCollectionDenom coll den =>
    obtain ⟨_, ⟨hv, rfl⟩, h⟩ := h
    unfold executeUpdateCollectionDenom at h
    simp only [bind_ok] at h
    obtain ⟨_, hadm, h⟩ := h
    cases h
    exact .denom coll den hadm
  case setListingFee fee =>
    unfold executeSetListingFee at h
    simp only [bind_ok] at h
    obtain ⟨_, hadm, h⟩ := h
    cases h
    exact .setFee fee hadm
  case removeListingFee den =>
    unfold executeRemoveListingFee at h
    simp only [bind_ok] at h
    obtain ⟨_, hadm, h⟩ := h
    cases h
    exact .rmFee den hadm
  case setAsk coll tok d =>
    obtain ⟨_, ⟨hv, rfl⟩, _, ⟨hd, rfl⟩, h⟩ := h
    exact setAsk_eff hv hd h
  case removeAsk id => exact removeAsk_eff h
  case updateAsk id d =>
    obtain ⟨_, ⟨hd, rfl⟩, h⟩ := h
    exact updateAsk_eff hd h
  case acceptAsk id d =>
    obtain ⟨_, ⟨hd, rfl⟩, h⟩ := h
    exact acceptAsk_eff hd h
  case setBid coll tok d =>
    obtain ⟨_, ⟨hv, rfl⟩, _, ⟨hd, rfl⟩, h⟩ := h
    exact setBid_eff hv hd h
  case removeBid id => exact removeBid_eff h
  case updateBid id d =>
    obtain ⟨_, ⟨hd, rfl⟩, h⟩ := h
    exact updateBid_eff hd h
  case acceptBid id d =>
    obtain ⟨_, ⟨hd, rfl⟩, h⟩ := h
    exact acceptBid_eff hd h
  case setCollectionBid coll d =>
    obtain ⟨_, ⟨hv, rfl⟩, _, ⟨hd, rfl⟩, h⟩ := h
    exact setCBid_eff hv hd h
  case removeCollectionBid id => exact removeCBid_eff h
  case updateCollectionBid id d =>
    obtain ⟨_, ⟨hd, rfl⟩, h⟩ := h
    exact updateCBid_eff hd h
  case acceptCollectionBid id tok d =>
    obtain ⟨_, ⟨hd, rfl⟩, h⟩ := h
    exact acceptCBid_eff hd h
  case sellNft coll tok d =>
    obtain ⟨_, ⟨hv, rfl⟩, _, ⟨hd, rfl⟩, h⟩ := h
    exact setAsk_eff hv hd h
  case buySpecificNft coll tok d =>
    obtain ⟨_, ⟨hv, rfl⟩, _, ⟨hd, rfl⟩, h⟩ := h
    exact setBid_eff hv hd h
  case buyCollectionNft coll d =>
    obtain ⟨_, ⟨hv, rfl⟩, _, ⟨hd, rfl⟩, h⟩ := h
    exact setCBid_eff hv hd h

end
end Verif.V2

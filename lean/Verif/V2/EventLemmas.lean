/-
Facts about the handlers with events: leaving the events out gives the handlers of `Verif.V2.Model`, and what
state change goes with which event. Helper file, no properties.
-/
import Verif.V2.Events
import Verif.V2.Trade

namespace Verif.V2
open Verif

/-- Leave the events out. -/
def dropEv (x : OutE) : Out := x.map (fun r => (r.1, r.2.1))

theorem dropEv_bind {α : Type} (x : Res α) (f : α → OutE) : dropEv (x >>= f) = x >>= fun a => dropEv (f a) := by
  cases x <;> rfl

theorem dropEv_ok (r : State × List Msg × List Event) : dropEv (.ok r) = .ok (r.1, r.2.1) := rfl
theorem dropEv_error (e : Err) : dropEv (.error e) = .error e := rfl

section
variable (p : Params)

theorem finalizeSaleE_drop (ctx : Ctx) (s : State) (ask : Ask) (c : Config) (mb : MatchingBid) (abb : Bool)
    (resp : List Msg) :
    dropEv (finalizeSaleE p ctx s ask c mb abb resp) = finalizeSale p ctx s ask c mb abb resp := by
  unfold finalizeSaleE finalizeSale
  simp only [dropEv_bind, dropEv_ok]

/-- Using the result of a sale. -/
theorem sale_bind_drop (x : OutE) (f : List Msg → List Msg) :
    dropEv (x >>= fun r => .ok (r.1, f r.2.1, r.2.2)) = dropEv x >>= fun r => .ok (r.1, f r.2) := by
  cases x <;> rfl

theorem askEvent_all {ty : String} {a : Ask} :
    askEvent ty a ["id", "creator", "collection", "token_id", "price", "recipient", "finder"] =
      .ok ⟨ty, [("id", a.id), ("creator", a.creator), ("collection", a.collection), ("token_id", a.tokenId),
        ("price", showCoin a.details.price)] ++ optAttr "recipient" a.details.recipient ++
        optAttr "finder" a.details.finder⟩ := by
  simp [askEvent, eventAttrs, Ask.eventAttr, ok_bind]

theorem askEvent_upd {ty : String} {a : Ask} :
    askEvent ty a ["id", "collection", "token_id", "price", "recipient", "finder"] =
      .ok ⟨ty, [("id", a.id), ("collection", a.collection), ("token_id", a.tokenId),
        ("price", showCoin a.details.price)] ++ optAttr "recipient" a.details.recipient ++
        optAttr "finder" a.details.finder⟩ := by
  simp [askEvent, eventAttrs, Ask.eventAttr, ok_bind]

theorem askEvent_rm {ty : String} {a : Ask} :
    askEvent ty a ["id", "collection", "token_id"] =
      .ok ⟨ty, [("id", a.id), ("collection", a.collection), ("token_id", a.tokenId)]⟩ := by
  simp [askEvent, eventAttrs, Ask.eventAttr, ok_bind]

theorem bidEvent_all {ty : String} {a : Bid} :
    bidEvent ty a ["id", "creator", "collection", "token_id", "price", "recipient", "finder"] =
      .ok ⟨ty, [("id", a.id), ("creator", a.creator), ("collection", a.collection), ("token_id", a.tokenId),
        ("price", showCoin a.details.price)] ++ optAttr "recipient" a.details.recipient ++
        optAttr "finder" a.details.finder⟩ := by
  simp [bidEvent, eventAttrs, Bid.eventAttr, ok_bind]

theorem bidEvent_upd {ty : String} {a : Bid} :
    bidEvent ty a ["id", "collection", "token_id", "price", "creator", "recipient", "finder"] =
      .ok ⟨ty, [("id", a.id), ("collection", a.collection), ("token_id", a.tokenId),
        ("price", showCoin a.details.price), ("creator", a.creator)] ++ optAttr "recipient" a.details.recipient ++
        optAttr "finder" a.details.finder⟩ := by
  simp [bidEvent, eventAttrs, Bid.eventAttr, ok_bind]

theorem bidEvent_rm {ty : String} {a : Bid} :
    bidEvent ty a ["id", "collection", "token_id"] =
      .ok ⟨ty, [("id", a.id), ("collection", a.collection), ("token_id", a.tokenId)]⟩ := by
  simp [bidEvent, eventAttrs, Bid.eventAttr, ok_bind]

theorem cbidEvent_all {ty : String} {a : CBid} :
    cbidEvent ty a ["id", "creator", "collection", "price", "recipient", "finder"] =
      .ok ⟨ty, [("id", a.id), ("creator", a.creator), ("collection", a.collection),
        ("price", showCoin a.details.price)] ++ optAttr "recipient" a.details.recipient ++
        optAttr "finder" a.details.finder⟩ := by
  simp [cbidEvent, eventAttrs, CBid.eventAttr, ok_bind]

theorem cbidEvent_upd {ty : String} {a : CBid} :
    cbidEvent ty a ["id", "collection", "price", "creator", "recipient", "finder"] =
      .ok ⟨ty, [("id", a.id), ("collection", a.collection), ("price", showCoin a.details.price),
        ("creator", a.creator)] ++ optAttr "recipient" a.details.recipient ++
        optAttr "finder" a.details.finder⟩ := by
  simp [cbidEvent, eventAttrs, CBid.eventAttr, ok_bind]

theorem cbidEvent_rm {ty : String} {a : CBid} :
    cbidEvent ty a ["id", "collection"] = .ok ⟨ty, [("id", a.id), ("collection", a.collection)]⟩ := by
  simp [cbidEvent, eventAttrs, CBid.eventAttr, ok_bind]

theorem setAskE_drop (ctx : Ctx) (sender : Addr) (funds : List Coin) (coll : Addr) (tok : Bytes) (d : Details)
    (now : Bool) (s : State) :
    dropEv (executeSetAskE p ctx sender funds coll tok d now s) = executeSetAsk p ctx sender funds coll tok d now s := by
  unfold executeSetAskE executeSetAsk
  simp only [dropEv_bind]
  congr 1; funext _; congr 1; funext _; congr 1; funext _; congr 1; funext pay; congr 1; funext fee
  congr 1; funext _
  generalize Ask.matchWithBid p s _ = o
  cases o with
  | some x =>
    exact finalizeSaleE_drop p ..
  | none =>
    cases now with
    | true => rfl
    | false => simp only [askEvent_all, ok_bind, dropEv_bind, dropEv_ok, Bool.false_eq_true, if_false]

theorem updateAskE_drop (ctx : Ctx) (sender : Addr) (funds : List Coin) (id : Bytes) (d : Details) (s : State) :
    dropEv (executeUpdateAskE p ctx sender funds id d s) = executeUpdateAsk p ctx sender funds id d s := by
  unfold executeUpdateAskE executeUpdateAsk
  simp only [dropEv_bind]
  congr 1; funext _; congr 1; funext a; congr 1; funext _; congr 1; funext _
  generalize Ask.matchWithBid p s _ = o
  cases o with
  | some x =>
    exact finalizeSaleE_drop p ..
  | none =>
    simp only [askEvent_upd, ok_bind, dropEv_ok]

theorem setBidE_drop (ctx : Ctx) (sender : Addr) (funds : List Coin) (coll : Addr) (tok : Bytes) (d : Details)
    (now : Bool) (s : State) :
    dropEv (executeSetBidE p ctx sender funds coll tok d now s) = executeSetBid p ctx sender funds coll tok d now s := by
  unfold executeSetBidE executeSetBid
  simp only [dropEv_bind]
  congr 1; funext _; congr 1; funext _; congr 1; funext fn
  generalize Bid.matchWithAsk p _ _ = o
  cases o with
  | some x =>
    simp only [dropEv_bind]
    congr 1; funext left
    rw [← finalizeSaleE_drop, ← sale_bind_drop, dropEv_bind]
  | none =>
    cases now with
    | true => rfl
    | false => simp only [bidEvent_all, ok_bind, dropEv_bind, dropEv_ok, Bool.false_eq_true, if_false]

theorem updateBidE_drop (ctx : Ctx) (sender : Addr) (funds : List Coin) (id : Bytes) (d : Details) (s : State) :
    dropEv (executeUpdateBidE p ctx sender funds id d s) = executeUpdateBid p ctx sender funds id d s := by
  unfold executeUpdateBidE executeUpdateBid
  simp only [dropEv_bind]
  congr 1; funext a; congr 1; funext _; congr 1; funext _; congr 1; funext fn; congr 1; funext fa
  generalize Bid.matchWithAsk p _ _ = o
  cases o with
  | some x =>
    simp only [dropEv_bind]
    congr 1; funext left
    rw [← finalizeSaleE_drop, ← sale_bind_drop, dropEv_bind]
  | none =>
    simp only [bidEvent_upd, ok_bind, dropEv_bind, dropEv_ok]

theorem setCBidE_drop (ctx : Ctx) (sender : Addr) (funds : List Coin) (coll : Addr) (d : Details)
    (now : Bool) (s : State) : dropEv (executeSetCollectionBidE p ctx sender funds coll d now s) =
      executeSetCollectionBid p ctx sender funds coll d now s := by
  unfold executeSetCollectionBidE executeSetCollectionBid
  simp only [dropEv_bind]
  congr 1; funext _; congr 1; funext _; congr 1; funext fn; congr 1; funext o
  cases o with
  | some x =>
    simp only [dropEv_bind]
    congr 1; funext left
    rw [← finalizeSaleE_drop, ← sale_bind_drop, dropEv_bind]
  | none =>
    cases now with
    | true => rfl
    | false => simp only [cbidEvent_all, ok_bind, dropEv_bind, dropEv_ok, Bool.false_eq_true, if_false]

theorem updateCBidE_drop (ctx : Ctx) (sender : Addr) (funds : List Coin) (id : Bytes) (d : Details) (s : State) :
    dropEv (executeUpdateCollectionBidE p ctx sender funds id d s) =
      executeUpdateCollectionBid p ctx sender funds id d s := by
  unfold executeUpdateCollectionBidE executeUpdateCollectionBid
  simp only [dropEv_bind]
  congr 1; funext a; congr 1; funext _; congr 1; funext _; congr 1; funext fn; congr 1; funext fa; congr 1; funext o
  cases o with
  | some x =>
    simp only [dropEv_bind]
    congr 1; funext left
    rw [← finalizeSaleE_drop, ← sale_bind_drop, dropEv_bind]
  | none =>
    simp only [cbidEvent_upd, ok_bind, dropEv_bind, dropEv_ok]

theorem acceptAskE_drop (ctx : Ctx) (sender : Addr) (funds : List Coin) (id : Bytes) (d : Details) (s : State) :
    dropEv (executeAcceptAskE p ctx sender funds id d s) = executeAcceptAsk p ctx sender funds id d s := by
  unfold executeAcceptAskE executeAcceptAsk
  simp only [dropEv_bind]
  congr 1; funext fn; congr 1; funext a; congr 1; funext _; congr 1; funext left
  rw [← finalizeSaleE_drop, ← sale_bind_drop, dropEv_bind]

/-- Leaving the events out of `executeE` gives `execute`, errors included. -/
theorem executeE_drop (ctx : Ctx) (sender : Addr) (funds : List Coin) (m : Exec) (s : State) :
    dropEv (executeE p ctx sender funds m s) = execute p ctx sender funds m s := by
  unfold executeE execute
  cases m <;> simp only [dropEv_bind, setAskE_drop, updateAskE_drop, setBidE_drop, updateBidE_drop, setCBidE_drop,
    updateCBidE_drop, acceptAskE_drop, executeUpdateConfigE, executeUpdateConfig, executeUpdateCollectionDenomE,
    executeUpdateCollectionDenom, executeSetListingFeeE, executeSetListingFee, executeRemoveListingFeeE,
    executeRemoveListingFee, executeRemoveAskE, executeRemoveAsk, executeRemoveBidE, executeRemoveBid,
    executeRemoveCollectionBidE, executeRemoveCollectionBid, executeAcceptBidE, executeAcceptBid,
    executeAcceptCollectionBidE, executeAcceptCollectionBid, finalizeSaleE_drop, askEvent_rm, bidEvent_rm, cbidEvent_rm,
    ok_bind, dropEv_ok]

theorem executeE_ok {ctx : Ctx} {sender : Addr} {funds : List Coin} {m : Exec} {s s' : State} {msgs : List Msg}
    {evs : List Event} (h : executeE p ctx sender funds m s = .ok (s', msgs, evs)) :
    execute p ctx sender funds m s = .ok (s', msgs) := by
  rw [← executeE_drop, h]; rfl

theorem executeE_of_ok {ctx : Ctx} {sender : Addr} {funds : List Coin} {m : Exec} {s s' : State} {msgs : List Msg}
    (h : execute p ctx sender funds m s = .ok (s', msgs)) :
    ∃ evs, executeE p ctx sender funds m s = .ok (s', msgs, evs) := by
  rw [← executeE_drop] at h
  cases hx : executeE p ctx sender funds m s with
  | error e => rw [hx] at h; cases h
  | ok r =>
    rw [hx] at h
    cases h
    exact ⟨r.2.2, rfl⟩

/-- Coins sent along with a sale that are not part of it: listing fee, refund. -/
def OnlySends (ms : List Msg) : Prop := ∀ y ∈ ms, ∃ a cs, y = .send a cs

/-- The call and the orders of a sale: which side was there first, and that its order is stored. -/
structure SaleBy (s : State) (m : Exec) (ask : Ask) (mb : MatchingBid) (abb : Bool) : Prop where
  rm : ∀ id, m ≠ .removeAsk id
  set : ∀ c t d, m = .setAsk c t d → ask.collection = c ∧ ask.tokenId = t
  id : 1 ≤ p.maxLimit → WF p s → ask.id = askId p ask.collection ask.tokenId
  side : Spec.SellerCall m = !abb
  ask : abb = true → 1 ≤ p.maxLimit → WF p s → s.asks.get? ask.id = some ask
  bid : abb = false → 1 ≤ p.maxLimit → WF p s → ∀ b, mb = .bid b → s.bids.get? b.id = some b
  cbid : abb = false → 1 ≤ p.maxLimit → WF p s → ∀ b, mb = .cbid b → s.cbids.get? b.id = some b

/-- State change, messages and events of a successful call. -/
inductive EvEff (ctx : Ctx) (m : Exec) (s : State) : State → List Msg → List Event → Prop where
  | config (c : Config) : EvEff ctx m s { s with config := c } [] [configEvent "set-config" c]
  | denom (coll : Addr) (den : Denom) : EvEff ctx m s { s with collectionDenoms := s.collectionDenoms.insert coll den } []
      [collectionDenomEvent "set-collection-denom" coll den]
  | setFee (fee : Coin) : EvEff ctx m s { s with listingFees := s.listingFees.insert fee.denom fee.amount } []
      [listingFeeEvent "set-listing-fee" fee.denom (some fee.amount)]
  | rmFee (den : Denom) : EvEff ctx m s { s with listingFees := s.listingFees.erase den } []
      [listingFeeEvent "remove-listing-fee" den none]
  | restAsk (a : Ask) (ms : List Msg) (hm : m = .setAsk a.collection a.tokenId a.details)
      (hpr : PriceOk s a.collection a.details.price) (hnew : s.asks.get? a.id = none)
      (hms : ∀ c t to, Msg.nft c t to ∈ ms → c = a.collection ∧ t = a.tokenId ∧ to = ctx.self) :
      EvEff ctx m s { s with asks := s.asks.insert a.id a } ms
        [⟨"set-ask", [("id", a.id), ("creator", a.creator), ("collection", a.collection), ("token_id", a.tokenId),
          ("price", showCoin a.details.price)] ++ optAttr "recipient" a.details.recipient ++
          optAttr "finder" a.details.finder⟩]
  | updAsk (id : Bytes) (a : Ask) (d : Details) (ha : s.asks.get? id = some a) (hpr : PriceOk s a.collection d.price) :
      EvEff ctx m s { s with asks := s.asks.insert a.id { a with details := d } } []
        [⟨"update-ask", [("id", a.id), ("collection", a.collection), ("token_id", a.tokenId),
          ("price", showCoin d.price)] ++ optAttr "recipient" d.recipient ++ optAttr "finder" d.finder⟩]
  | rmAsk (id : Bytes) (a : Ask) (hm : m = .removeAsk id) (ha : s.asks.get? id = some a) :
      EvEff ctx m s { s with asks := s.asks.erase a.id } [.nft a.collection a.tokenId a.assetRecipient]
        [⟨"remove-ask", [("id", a.id), ("collection", a.collection), ("token_id", a.tokenId)]⟩]
  | restBid (n : Nat) (a : Bid) (ms : List Msg) (hpr : PriceOk s a.collection a.details.price)
      (hnew : s.bids.get? a.id = none) (hms : OnlySends ms) :
      EvEff ctx m s { s with nonce := n, bids := s.bids.insert a.id a } ms
        [⟨"set-bid", [("id", a.id), ("creator", a.creator), ("collection", a.collection), ("token_id", a.tokenId),
          ("price", showCoin a.details.price)] ++ optAttr "recipient" a.details.recipient ++
          optAttr "finder" a.details.finder⟩]
  | updBid (id : Bytes) (a : Bid) (d : Details) (ms : List Msg) (ha : s.bids.get? id = some a)
      (hpr : PriceOk s a.collection d.price) (hms : OnlySends ms) :
      EvEff ctx m s { s with bids := s.bids.insert a.id { a with details := d } } ms
        [⟨"update-bid", [("id", a.id), ("collection", a.collection), ("token_id", a.tokenId),
          ("price", showCoin d.price), ("creator", a.creator)] ++ optAttr "recipient" d.recipient ++
          optAttr "finder" d.finder⟩]
  | rmBid (id : Bytes) (a : Bid) (ms : List Msg) (ha : s.bids.get? id = some a) (hms : OnlySends ms) :
      EvEff ctx m s { s with bids := s.bids.erase a.id } ms
        [⟨"remove-bid", [("id", a.id), ("collection", a.collection), ("token_id", a.tokenId)]⟩]
  | restCBid (n : Nat) (a : CBid) (ms : List Msg) (hpr : PriceOk s a.collection a.details.price)
      (hnew : s.cbids.get? a.id = none) (hms : OnlySends ms) :
      EvEff ctx m s { s with nonce := n, cbids := s.cbids.insert a.id a } ms
        [⟨"set-collection-bid", [("id", a.id), ("creator", a.creator), ("collection", a.collection),
          ("price", showCoin a.details.price)] ++ optAttr "recipient" a.details.recipient ++
          optAttr "finder" a.details.finder⟩]
  | updCBid (id : Bytes) (a : CBid) (d : Details) (ms : List Msg) (ha : s.cbids.get? id = some a)
      (hpr : PriceOk s a.collection d.price) (hms : OnlySends ms) :
      EvEff ctx m s { s with cbids := s.cbids.insert a.id { a with details := d } } ms
        [⟨"update-collection-bid", [("id", a.id), ("collection", a.collection), ("price", showCoin d.price),
          ("creator", a.creator)] ++ optAttr "recipient" d.recipient ++ optAttr "finder" d.finder⟩]
  | rmCBid (id : Bytes) (a : CBid) (ms : List Msg) (ha : s.cbids.get? id = some a) (hms : OnlySends ms) :
      EvEff ctx m s { s with cbids := s.cbids.erase a.id } ms
        [⟨"remove-collection-bid", [("id", a.id), ("collection", a.collection)]⟩]
  | sale (n : Nat) (ask : Ask) (mb : MatchingBid) (abb : Bool) (pre post : List Msg)
      (x : SaleParts p ctx ask s.config mb abb) (hb : SaleBy p s m ask mb abb) (h1 : OnlySends pre) (h2 : OnlySends post) :
      EvEff ctx m s (afterSale { s with nonce := n } ask mb) (pre ++ x.msgs ++ post)
        [saleEvent ask mb (saleTerms ask mb abb).1 x.payments]

variable {p}

theorem finalizeSaleE_ok {ctx : Ctx} {s : State} {ask : Ask} {c : Config} {mb : MatchingBid} {abb : Bool}
    {resp : List Msg} {r : State × List Msg × List Event} (h : finalizeSaleE p ctx s ask c mb abb resp = .ok r) :
    ∃ x : SaleParts p ctx ask c mb abb, r = (afterSale s ask mb, resp ++ x.msgs,
      [saleEvent ask mb (saleTerms ask mb abb).1 x.payments]) := by
  unfold finalizeSaleE at h
  simp only [bind_ok] at h
  obtain ⟨pf, hpf, roy, hroy, fees, hfees, pay, hpay, h⟩ := h
  refine ⟨⟨pf, roy, fees, pay, hpf, hroy, hfees, hpay⟩, ?_⟩
  simp only [Except.ok.injEq] at h
  rw [← h]
  simp [SaleParts.msgs, afterSale, List.append_assoc]

theorem refund_sends (sender : Addr) (left : List Coin) : OnlySends (refund sender left []) := by
  unfold refund
  split
  · intro y hy; cases hy
  · intro y hy
    simp only [List.nil_append, List.mem_singleton] at hy
    exact ⟨_, _, hy⟩

theorem refund_append (sender : Addr) (left : List Coin) (ms : List Msg) :
    refund sender left ms = ms ++ refund sender left [] := by
  unfold refund; split <;> simp

theorem noSends : OnlySends [] := by intro y hy; cases hy
theorem oneSend (a : Addr) (cs : List Coin) : OnlySends [.send a cs] := by
  intro y hy; exact ⟨a, cs, List.mem_singleton.mp hy⟩

theorem SaleBy.buyer {s : State} {m : Exec} {ask : Ask} {mb : MatchingBid} (hs : Spec.SellerCall m = false)
    (hrm : ∀ id, m ≠ .removeAsk id) (ha : 1 ≤ p.maxLimit → ∃ k, s.asks.get? k = some ask)
    (hid : 1 ≤ p.maxLimit → WF p s → ask.id = askId p ask.collection ask.tokenId) : SaleBy p s m ask mb true where
  rm := hrm
  set c t d h := by subst h; cases hs
  id := hid
  side := hs
  ask _ hl hw := by
    obtain ⟨k, hk⟩ := ha hl
    rw [(hw.ask hk).1]; exact hk
  bid h := by cases h
  cbid h := by cases h

theorem SaleBy.seller {s : State} {m : Exec} {ask : Ask} {mb : MatchingBid} (hs : Spec.SellerCall m = true)
    (hset : ∀ c t d, m = .setAsk c t d → ask.collection = c ∧ ask.tokenId = t)
    (hid : 1 ≤ p.maxLimit → WF p s → ask.id = askId p ask.collection ask.tokenId)
    (hb : 1 ≤ p.maxLimit → ∀ b, mb = .bid b → ∃ k, s.bids.get? k = some b)
    (hc : 1 ≤ p.maxLimit → ∀ b, mb = .cbid b → ∃ k, s.cbids.get? k = some b) : SaleBy p s m ask mb false where
  rm id h := by subst h; cases hs
  set := hset
  id := hid
  side := hs
  ask h := by cases h
  bid _ hl hw b h := by
    obtain ⟨k, hk⟩ := hb hl b h
    rw [(hw.bid hk).1]; exact hk
  cbid _ hl hw b h := by
    obtain ⟨k, hk⟩ := hc hl b h
    rw [(hw.cbid hk).1]; exact hk

theorem WF.ask_id {s : State} {k : Bytes} {a : Ask} (hw : WF p s) (h : s.asks.get? k = some a) :
    a.id = askId p a.collection a.tokenId := (hw.ask h).1.trans (hw.ask h).2.1

theorem acceptor_id {ctx : Ctx} {sender : Addr} {coll tok : Bytes} {d : Details} {s : State} {a : Ask}
    (h : acceptorAsk p ctx sender coll tok d s = .ok a) (hw : WF p s) : a.id = askId p a.collection a.tokenId := by
  rcases acceptor_cases h with ⟨h, _⟩ | ⟨_, _, rfl⟩
  · exact hw.ask_id h
  · rfl

/-- A sale without change of the bid counter. -/
theorem EvEff.sale' {ctx : Ctx} {s : State} {ask : Ask} {mb : MatchingBid} {abb : Bool} {pre ms : List Msg}
    {m : Exec} (x : SaleParts p ctx ask s.config mb abb) (hb : SaleBy p s m ask mb abb) (h1 : OnlySends pre) (h : ms = pre ++ x.msgs) :
    EvEff p ctx m s (afterSale s ask mb) ms [saleEvent ask mb (saleTerms ask mb abb).1 x.payments] := by
  have := EvEff.sale (p := p) (ctx := ctx) (s := s) s.nonce ask mb abb pre [] x hb h1 noSends
  rw [h]
  simpa using this

/-- A sale to a new or changed order of the buyer, with refund. -/
theorem EvEff.sale'' {ctx : Ctx} {s : State} (n : Nat) {ask : Ask} {mb : MatchingBid} {abb : Bool} {sender : Addr}
    {left : List Coin} {m : Exec} (x : SaleParts p ctx ask s.config mb abb) (hb : SaleBy p s m ask mb abb) :
    EvEff p ctx m s (afterSale { s with nonce := n } ask mb) (refund sender left x.msgs)
      [saleEvent ask mb (saleTerms ask mb abb).1 x.payments] := by
  have := EvEff.sale (p := p) (ctx := ctx) (s := s) n ask mb abb [] _ x hb noSends (refund_sends sender left)
  rw [refund_append]
  simpa using this

theorem setAskE_ev {ctx : Ctx} {sender : Addr} {funds : List Coin} {coll : Addr} {tok : Bytes} {d : Details}
    {now : Bool} {s : State} {r : State × List Msg × List Event}
    (h : executeSetAskE p ctx sender funds coll tok d now s = .ok r) : EvEff p ctx (if now then .sellNft coll tok d else .setAsk coll tok d) s r.1 r.2.1 r.2.2 := by
  unfold executeSetAskE at h
  simp only [bind_ok, onlyValidPrice_ok, orErr_ok, ensure_ok] at h
  obtain ⟨_, _, _, _, _, hpr, pay, _, fee, _, _, _, h⟩ := h
  split at h
  case h_1 mb hmb =>
    obtain ⟨x, rfl⟩ := finalizeSaleE_ok h
    refine .sale' x (.seller ?_ ?_ (fun _ _ => rfl) ?_ ?_) (oneSend _ _) rfl
    · cases now <;> rfl
    · cases now with
      | false => intro c t d h; cases h; exact ⟨rfl, rfl⟩
      | true => intro c t d h; cases h
    · intro hl b h; subst h; exact (matchWithBid_bid hl hmb).1
    · intro hl b h; subst h; exact (matchWithBid_cbid hl hmb).1
  case h_2 hm =>
    cases now with
    | true => cases h
    | false =>
      simp only [Bool.false_eq_true, if_false, bind_ok, ensure_ok, askEvent_all] at h
      obtain ⟨ev, hev, _, hnew, h⟩ := h
      cases hev
      cases h
      refine .restAsk (Ask.new p sender coll tok d) _ rfl hpr hnew ?_
      intro c t to hm
      simp only [transferCoin, transferNft, List.cons_append, List.nil_append, List.mem_cons, Msg.nft.injEq,
        List.not_mem_nil, or_false, reduceCtorEq, false_or] at hm
      exact hm

theorem updateAskE_ev {ctx : Ctx} {sender : Addr} {funds : List Coin} {id : Bytes} {d : Details}
    {s : State} {r : State × List Msg × List Event}
    (h : executeUpdateAskE p ctx sender funds id d s = .ok r) : EvEff p ctx (.updateAsk id d) s r.1 r.2.1 r.2.2 := by
  unfold executeUpdateAskE at h
  simp only [bind_ok, onlyValidPrice_ok, orErr_ok, ensure_ok] at h
  obtain ⟨_, _, a, ha, _, _, _, hpr, h⟩ := h
  split at h
  case h_1 mb hmb =>
    obtain ⟨x, rfl⟩ := finalizeSaleE_ok h
    refine .sale' x (.seller rfl (by intro _ _ _ h; cases h) (fun _ hw => by have := hw.ask_id ha; exact this) ?_ ?_)
      noSends rfl
    · intro hl b h; subst h; exact (matchWithBid_bid hl hmb).1
    · intro hl b h; subst h; exact (matchWithBid_cbid hl hmb).1
  case h_2 hm =>
    simp only [askEvent_upd, ok_bind] at h
    cases h
    exact .updAsk id a d ha hpr

theorem removeAskE_ev {ctx : Ctx} {sender : Addr} {funds : List Coin} {id : Bytes}
    {s : State} {r : State × List Msg × List Event} (h : executeRemoveAskE sender funds id s = .ok r) :
    EvEff p ctx (.removeAsk id) s r.1 r.2.1 r.2.2 := by
  unfold executeRemoveAskE at h
  simp only [bind_ok, orErr_ok, ensure_ok, askEvent_rm] at h
  obtain ⟨_, _, a, ha, _, _, ev, hev, h⟩ := h
  cases hev
  cases h
  exact .rmAsk id a rfl ha

theorem acceptAskE_ev {ctx : Ctx} {sender : Addr} {funds : List Coin} {id : Bytes} {d : Details}
    {s : State} {r : State × List Msg × List Event}
    (h : executeAcceptAskE p ctx sender funds id d s = .ok r) : EvEff p ctx (.acceptAsk id d) s r.1 r.2.1 r.2.2 := by
  unfold executeAcceptAskE at h
  simp only [bind_ok, orErr_ok, ensure_ok, takePrice_ok] at h
  obtain ⟨fn, _, a, ha, _, _, left, _, q, hq, h⟩ := h
  obtain ⟨x, rfl⟩ := finalizeSaleE_ok hq
  cases h
  exact .sale'' (nextNonce s) x (.buyer rfl (by intro _ h; cases h) (fun _ => ⟨_, ha⟩) (fun _ hw => hw.ask_id ha))

theorem setBidE_ev {ctx : Ctx} {sender : Addr} {funds : List Coin} {coll : Addr} {tok : Bytes} {d : Details}
    {now : Bool} {s : State} {r : State × List Msg × List Event}
    (h : executeSetBidE p ctx sender funds coll tok d now s = .ok r) : EvEff p ctx (if now then .buySpecificNft coll tok d else .setBid coll tok d) s r.1 r.2.1 r.2.2 := by
  unfold executeSetBidE at h
  simp only [bind_ok, onlyValidPrice_ok] at h
  obtain ⟨_, _, _, hpr, fn, _, h⟩ := h
  split at h
  case h_1 a ha =>
    simp only [bind_ok] at h
    obtain ⟨left, _, q, hq, h⟩ := h
    obtain ⟨x, rfl⟩ := finalizeSaleE_ok hq
    cases h
    have hk := (bidMatch_some ha).1
    exact .sale'' (nextNonce s) x (.buyer (by cases now <;> rfl) (by cases now <;> (intro _ h; cases h))
      (fun _ => ⟨_, hk⟩) (fun _ hw => hw.ask_id hk))
  case h_2 hm =>
    cases now with
    | true => cases h
    | false =>
      simp only [Bool.false_eq_true, if_false, bind_ok, ensure_ok, bidEvent_all] at h
      obtain ⟨left, _, ev, hev, _, hnew, h⟩ := h
      cases hev
      cases h
      exact .restBid (nextNonce s) (Bid.new p sender coll tok d ctx.height (nextNonce s)) _ hpr hnew (refund_sends _ _)

theorem updateBidE_ev {ctx : Ctx} {sender : Addr} {funds : List Coin} {id : Bytes} {d : Details}
    {s : State} {r : State × List Msg × List Event}
    (h : executeUpdateBidE p ctx sender funds id d s = .ok r) : EvEff p ctx (.updateBid id d) s r.1 r.2.1 r.2.2 := by
  unfold executeUpdateBidE at h
  simp only [bind_ok, onlyValidPrice_ok, orErr_ok, ensure_ok] at h
  obtain ⟨b, hb, _, _, _, hpr, fn, _, fa, _, h⟩ := h
  split at h
  case h_1 a ha =>
    simp only [bind_ok] at h
    obtain ⟨left, _, q, hq, h⟩ := h
    obtain ⟨x, rfl⟩ := finalizeSaleE_ok hq
    cases h
    have hk := (bidMatch_some ha).1
    exact .sale'' s.nonce x (.buyer rfl (by intro _ h; cases h) (fun _ => ⟨_, hk⟩) (fun _ hw => hw.ask_id hk))
  case h_2 hm =>
    simp only [bind_ok, bidEvent_upd] at h
    obtain ⟨left, _, ev, hev, h⟩ := h
    cases hev
    cases h
    exact .updBid id b d _ hb hpr (refund_sends _ _)

theorem removeBidE_ev {ctx : Ctx} {sender : Addr} {funds : List Coin} {id : Bytes}
    {s : State} {r : State × List Msg × List Event} (h : executeRemoveBidE sender funds id s = .ok r) :
    EvEff p ctx (.removeBid id) s r.1 r.2.1 r.2.2 := by
  unfold executeRemoveBidE at h
  simp only [bind_ok, orErr_ok, ensure_ok, bidEvent_rm] at h
  obtain ⟨_, _, a, ha, _, _, ev, hev, h⟩ := h
  cases hev
  cases h
  exact .rmBid id a _ ha (oneSend _ _)

theorem acceptBidE_ev {ctx : Ctx} {sender : Addr} {id : Bytes} {d : Details}
    {s : State} {r : State × List Msg × List Event}
    (h : executeAcceptBidE p ctx sender id d s = .ok r) : EvEff p ctx (.acceptBid id d) s r.1 r.2.1 r.2.2 := by
  unfold executeAcceptBidE at h
  simp only [bind_ok, orErr_ok, ensure_ok] at h
  obtain ⟨b, hb, _, _, a, ha, h⟩ := h
  obtain ⟨x, rfl⟩ := finalizeSaleE_ok h
  exact .sale' x (.seller rfl (by intro _ _ _ h; cases h) (fun _ hw => acceptor_id ha hw)
    (by intro _ b' h; cases h; exact ⟨_, hb⟩) (by intro _ b' h; cases h)) noSends rfl

theorem setCBidE_ev {ctx : Ctx} {sender : Addr} {funds : List Coin} {coll : Addr} {d : Details}
    {now : Bool} {s : State} {r : State × List Msg × List Event}
    (h : executeSetCollectionBidE p ctx sender funds coll d now s = .ok r) : EvEff p ctx (if now then .buyCollectionNft coll d else .setCollectionBid coll d) s r.1 r.2.1 r.2.2 := by
  unfold executeSetCollectionBidE at h
  simp only [bind_ok, onlyValidPrice_ok] at h
  obtain ⟨_, _, _, hpr, fn, _, m, ha, h⟩ := h
  cases m with
  | some a =>
    simp only [bind_ok] at h
    obtain ⟨left, _, q, hq, h⟩ := h
    obtain ⟨x, rfl⟩ := finalizeSaleE_ok hq
    cases h
    have hk := fun hl => (cbidMatch_some hl ha).1
    exact .sale'' (nextNonce s) x (.buyer (by cases now <;> rfl) (by cases now <;> (intro _ h; cases h))
      hk (fun hl hw => by obtain ⟨k, hk'⟩ := hk hl; exact hw.ask_id (k := k) hk'))
  | none =>
    cases now with
    | true => cases h
    | false =>
      simp only [Bool.false_eq_true, if_false, bind_ok, ensure_ok, cbidEvent_all] at h
      obtain ⟨left, _, ev, hev, _, hnew, h⟩ := h
      cases hev
      cases h
      exact .restCBid (nextNonce s) (CBid.new p sender coll d ctx.height (nextNonce s)) _ hpr hnew (refund_sends _ _)

theorem updateCBidE_ev {ctx : Ctx} {sender : Addr} {funds : List Coin} {id : Bytes} {d : Details}
    {s : State} {r : State × List Msg × List Event}
    (h : executeUpdateCollectionBidE p ctx sender funds id d s = .ok r) : EvEff p ctx (.updateCollectionBid id d) s r.1 r.2.1 r.2.2 := by
  unfold executeUpdateCollectionBidE at h
  simp only [bind_ok, onlyValidPrice_ok, orErr_ok, ensure_ok] at h
  obtain ⟨b, hb, _, _, _, hpr, fn, _, fa, _, m, ha, h⟩ := h
  cases m with
  | some a =>
    simp only [bind_ok] at h
    obtain ⟨left, _, q, hq, h⟩ := h
    obtain ⟨x, rfl⟩ := finalizeSaleE_ok hq
    cases h
    have hk := fun hl => (cbidMatch_some hl ha).1
    exact .sale'' s.nonce x (.buyer rfl (by intro _ h; cases h) hk
      (fun hl hw => by obtain ⟨k, hk'⟩ := hk hl; exact hw.ask_id (k := k) hk'))
  | none =>
    simp only [bind_ok, cbidEvent_upd] at h
    obtain ⟨left, _, ev, hev, h⟩ := h
    cases hev
    cases h
    exact .updCBid id b d _ hb hpr (refund_sends _ _)

theorem removeCBidE_ev {ctx : Ctx} {sender : Addr} {funds : List Coin} {id : Bytes}
    {s : State} {r : State × List Msg × List Event} (h : executeRemoveCollectionBidE sender funds id s = .ok r) :
    EvEff p ctx (.removeCollectionBid id) s r.1 r.2.1 r.2.2 := by
  unfold executeRemoveCollectionBidE at h
  simp only [bind_ok, orErr_ok, ensure_ok, cbidEvent_rm] at h
  obtain ⟨_, _, a, ha, _, _, ev, hev, h⟩ := h
  cases hev
  cases h
  exact .rmCBid id a _ ha (oneSend _ _)

theorem acceptCBidE_ev {ctx : Ctx} {sender : Addr} {id tok : Bytes} {d : Details}
    {s : State} {r : State × List Msg × List Event}
    (h : executeAcceptCollectionBidE p ctx sender id tok d s = .ok r) : EvEff p ctx (.acceptCollectionBid id tok d) s r.1 r.2.1 r.2.2 := by
  unfold executeAcceptCollectionBidE at h
  simp only [bind_ok, orErr_ok, ensure_ok] at h
  obtain ⟨b, hb, _, _, a, ha, h⟩ := h
  obtain ⟨x, rfl⟩ := finalizeSaleE_ok h
  exact .sale' x (.seller rfl (by intro _ _ _ h; cases h) (fun _ hw => acceptor_id ha hw)
    (by intro _ b' h; cases h) (by intro _ b' h; cases h; exact ⟨_, hb⟩)) noSends rfl

/-- Inversion of `executeE`. -/
theorem executeE_ev {ctx : Ctx} {sender : Addr} {funds : List Coin} {m : Exec} {s s' : State} {msgs : List Msg}
    {evs : List Event} (h : executeE p ctx sender funds m s = .ok (s', msgs, evs)) : EvEff p ctx m s s' msgs evs := by
  cases m <;> simp only [executeE, bind_ok] at h
  case updateConfig =>
    obtain ⟨c, _, h⟩ := h
    unfold executeUpdateConfigE at h
    simp only [bind_ok] at h
    obtain ⟨_, _, _, _, h⟩ := h
    cases h
    exact .config c
  case updateCollectionDenom =>
    obtain ⟨c, _, h⟩ := h
    unfold executeUpdateCollectionDenomE at h
    simp only [bind_ok] at h
    obtain ⟨_, _, h⟩ := h
    cases h
    exact .denom c _
  case setListingFee fee =>
    unfold executeSetListingFeeE at h
    simp only [bind_ok] at h
    obtain ⟨_, _, h⟩ := h
    cases h
    exact .setFee fee
  case removeListingFee den =>
    unfold executeRemoveListingFeeE at h
    simp only [bind_ok] at h
    obtain ⟨_, _, h⟩ := h
    cases h
    exact .rmFee den
  case setAsk =>
    simp only [addrValidate_ok, strToAddr_ok] at h
    obtain ⟨_, ⟨_, rfl⟩, _, ⟨_, rfl⟩, h⟩ := h
    exact setAskE_ev h
  case updateAsk =>
    simp only [strToAddr_ok] at h
    obtain ⟨_, ⟨_, rfl⟩, h⟩ := h
    exact updateAskE_ev h
  case removeAsk => exact removeAskE_ev h
  case acceptAsk =>
    simp only [strToAddr_ok] at h
    obtain ⟨_, ⟨_, rfl⟩, h⟩ := h
    exact acceptAskE_ev h
  case setBid =>
    simp only [addrValidate_ok, strToAddr_ok] at h
    obtain ⟨_, ⟨_, rfl⟩, _, ⟨_, rfl⟩, h⟩ := h
    exact setBidE_ev h
  case updateBid =>
    simp only [strToAddr_ok] at h
    obtain ⟨_, ⟨_, rfl⟩, h⟩ := h
    exact updateBidE_ev h
  case removeBid => exact removeBidE_ev h
  case acceptBid =>
    simp only [strToAddr_ok] at h
    obtain ⟨_, ⟨_, rfl⟩, h⟩ := h
    exact acceptBidE_ev h
  case setCollectionBid =>
    simp only [addrValidate_ok, strToAddr_ok] at h
    obtain ⟨_, ⟨_, rfl⟩, _, ⟨_, rfl⟩, h⟩ := h
    exact setCBidE_ev h
  case updateCollectionBid =>
    simp only [strToAddr_ok] at h
    obtain ⟨_, ⟨_, rfl⟩, h⟩ := h
    exact updateCBidE_ev h
  case removeCollectionBid => exact removeCBidE_ev h
  case acceptCollectionBid =>
    simp only [strToAddr_ok] at h
    obtain ⟨_, ⟨_, rfl⟩, h⟩ := h
    exact acceptCBidE_ev h
  case sellNft =>
    simp only [addrValidate_ok, strToAddr_ok] at h
    obtain ⟨_, ⟨_, rfl⟩, _, ⟨_, rfl⟩, h⟩ := h
    exact setAskE_ev h
  case buySpecificNft =>
    simp only [addrValidate_ok, strToAddr_ok] at h
    obtain ⟨_, ⟨_, rfl⟩, _, ⟨_, rfl⟩, h⟩ := h
    exact setBidE_ev h
  case buyCollectionNft =>
    simp only [addrValidate_ok, strToAddr_ok] at h
    obtain ⟨_, ⟨_, rfl⟩, _, ⟨_, rfl⟩, h⟩ := h
    exact setCBidE_ev h

end
end Verif.V2

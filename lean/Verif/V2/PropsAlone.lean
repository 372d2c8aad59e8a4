/-
Marketplace v2: collections do not affect each other (C122).
-/
import Verif.Base.Keep
import Verif.V2.PropsOrders
import Verif.V2.PropsSale

set_option linter.unusedSectionVars false

namespace Verif.V2
open Verif Spec

section
variable {p : Params} {me : Addr}

namespace Spec

/-- The collection a call is about: the one it names, or that of the order it names. -/
def about (s : State) : Exec → Option Addr
  | .updateConfig _ | .setListingFee _ | .removeListingFee _ => none
  | .updateCollectionDenom c _ | .setAsk c _ _ | .setBid c _ _ | .setCollectionBid c _ | .sellNft c _ _ | .buySpecificNft c _ _
  | .buyCollectionNft c _ => some c
  | .removeAsk id | .updateAsk id _ | .acceptAsk id _ => (s.asks.get? id).map Ask.collection
  | .removeBid id | .updateBid id _ | .acceptBid id _ => (s.bids.get? id).map Bid.collection
  | .removeCollectionBid id | .updateCollectionBid id _ | .acceptCollectionBid id _ _ =>
    (s.cbids.get? id).map CBid.collection

/-- Calls that change the configuration of the whole marketplace. -/
def Global : Exec → Bool
  | .updateConfig _ | .setListingFee _ | .removeListingFee _ => true
  | _ => false

/-- The marketplace as it would be if all other collections had no orders and no denom of their own. -/
def only (c : Addr) (s : State) : State :=
  { s with
    collectionDenoms := s.collectionDenoms.keep (fun k _ => decide (k = c))
    asks := s.asks.keep (fun _ a => decide (a.collection = c))
    bids := s.bids.keep (fun _ b => decide (b.collection = c))
    cbids := s.cbids.keep (fun _ b => decide (b.collection = c)) }

/-- The same for a result of a call. -/
def onlyRes (c : Addr) (r : Res (State × List Msg)) : Res (State × List Msg) := r.map (fun x => (only c x.1, x.2))

/-- Histories of a marketplace with one collection: calls about it, calls that change the configuration, and jumps of the
bid counter. -/
inductive Alone (p : Params) (self c : Addr) : State → Prop where
  | init {cf : Config} {s : State} (h : instantiate p cf = .ok s) : Alone p self c s
  | call {s s' : State} {ctx : Ctx} {sender : Addr} {funds : List Coin} {m : Exec} {msgs : List Msg}
      (hb : Alone p self c s) (hself : ctx.self = self) (hne : sender ≠ self) (hm : about s m = some c ∨ Global m = true)
      (h : execute p ctx sender funds m s = .ok (s', msgs)) : Alone p self c s'
  | tick {s : State} (hb : Alone p self c s) (n : Nat) : Alone p self c { s with nonce := n }

end Spec

/-! ### Parts of the handlers -/

theorem only_entries_bid {s : State} (hns : NoSlash p) (hw : WF p s) {c : Addr} (hc : p.valid c = true) (tok : Bytes) (d : Denom) :
    bidEntries (only c s) c tok d = bidEntries s c tok d := by
  unfold bidEntries only AMap.keep
  simp only [List.filter_filter]
  congr 1
  apply List.filter_congr
  rintro ⟨id, b⟩ hm
  by_cases h : indexStr b.collection b.tokenId = indexStr c tok
  · have := (indexStr_inj (hns _ (hw.bid (AMap.mem_iff.mp hm)).2.1) (hns _ hc) h).1
    simp only [this, decide_true, Bool.and_true]
  · simp only [h, false_and, decide_false, Bool.false_and]

theorem only_entries_cbid (s : State) (c : Addr) (d : Denom) : cbidEntries (only c s) c d = cbidEntries s c d := by
  unfold cbidEntries only AMap.keep
  simp only [List.filter_filter]
  congr 1
  apply List.filter_congr
  rintro ⟨id, b⟩ _
  by_cases h : b.collection = c <;> simp [h]

theorem only_entries_ask (s : State) (c : Addr) (d : Denom) : askEntries (only c s) c d = askEntries s c d := by
  unfold askEntries only AMap.keep
  simp only [List.filter_filter]
  congr 1
  apply List.filter_congr
  rintro ⟨id, b⟩ _
  by_cases h : b.collection = c <;> simp [h]

theorem only_matchBid {s : State} (hns : NoSlash p) (hw : WF p s) {c : Addr} (hc : p.valid c = true) {a : Ask}
    (ha : a.collection = c) : a.matchWithBid p (only c s) = a.matchWithBid p s := by
  unfold Ask.matchWithBid queryBidsByTokenPrice queryCollectionBidsByPrice
  rw [ha, only_entries_bid hns hw hc, only_entries_cbid]

theorem only_askAt {s : State} (hinj : HashInj p) (hpf : PrefixFree p) (hw : WF p s) {c : Addr} (hc : p.valid c = true) (tok : Bytes) :
    (only c s).asks.get? (askId p c tok) = s.asks.get? (askId p c tok) := by
  apply AMap.get?_keep_pos
  intro a ha
  obtain ⟨_, h2, h3, _⟩ := hw.ask ha
  exact decide_eq_true (askId_inj hinj hpf hc h3 h2).1.symm

theorem only_matchAsk {s : State} (hinj : HashInj p) (hpf : PrefixFree p) (hw : WF p s) {c : Addr} (hc : p.valid c = true)
    {b : Bid} (hb : b.collection = c) : b.matchWithAsk p (only c s) = b.matchWithAsk p s := by
  unfold Bid.matchWithAsk
  rw [hb, only_askAt hinj hpf hw hc]

theorem only_cmatchAsk (s : State) {c : Addr} {b : CBid} (hb : b.collection = c) :
    b.matchWithAsk p (only c s) = b.matchWithAsk p s := by
  unfold CBid.matchWithAsk queryAsksByCollectionDenom
  rw [hb, only_entries_ask]

theorem only_price (s : State) (c : Addr) (x : Coin) :
    onlyValidPrice (only c s) (only c s).config c x = onlyValidPrice s s.config c x := by
  unfold onlyValidPrice
  have : (only c s).collectionDenoms.get? c = s.collectionDenoms.get? c :=
    AMap.get?_keep_pos fun _ _ => decide_eq_true rfl
  rw [this]; rfl

theorem only_sale (ctx : Ctx) (s : State) (c : Addr) (ask : Ask) (cf : Config) (mb : MatchingBid) (abb : Bool) (resp : List Msg) :
    finalizeSale p ctx (only c s) ask cf mb abb resp = onlyRes c (finalizeSale p ctx s ask cf mb abb resp) := by
  unfold finalizeSale onlyRes
  simp only [map_bind]
  refine bind_same fun _ _ => bind_same fun _ _ => bind_same fun _ _ => bind_same fun _ _ => ?_
  cases mb <;>
  · simp only [Except.map, removeMatching, only, AMap.keep_erase]

theorem only_acceptor {ctx : Ctx} {s : State} (hinj : HashInj p) (hpf : PrefixFree p) (hw : WF p s) {c : Addr} (hc : p.valid c = true)
    (sender : Addr) (tok : Bytes) (d : Details) :
    acceptorAsk p ctx sender c tok d (only c s) = acceptorAsk p ctx sender c tok d s := by
  unfold acceptorAsk
  rw [only_askAt hinj hpf hw hc]

theorem only_get_ask {s : State} {id : Bytes} {a : Ask} (h : s.asks.get? id = some a) :
    (only a.collection s).asks.get? id = some a := by
  refine (AMap.get?_keep_pos fun v hv => ?_).trans h
  rw [h] at hv; cases hv; exact decide_eq_true rfl

theorem only_get_bid {s : State} {id : Bytes} {a : Bid} (h : s.bids.get? id = some a) :
    (only a.collection s).bids.get? id = some a := by
  refine (AMap.get?_keep_pos fun v hv => ?_).trans h
  rw [h] at hv; cases hv; exact decide_eq_true rfl

theorem only_get_cbid {s : State} {id : Bytes} {a : CBid} (h : s.cbids.get? id = some a) :
    (only a.collection s).cbids.get? id = some a := by
  refine (AMap.get?_keep_pos fun v hv => ?_).trans h
  rw [h] at hv; cases hv; exact decide_eq_true rfl

theorem only_put_ask (s : State) (k : Bytes) (a : Ask) :
    only a.collection { s with asks := s.asks.insert k a } =
      { only a.collection s with asks := (only a.collection s).asks.insert k a } := by
  unfold only
  simp only
  rw [AMap.keep_insert _ _ _ _ (by simp)]

theorem only_put_bid (s : State) (k : Bytes) (a : Bid) :
    only a.collection { s with bids := s.bids.insert k a } =
      { only a.collection s with bids := (only a.collection s).bids.insert k a } := by
  unfold only
  simp only
  rw [AMap.keep_insert _ _ _ _ (by simp)]

theorem only_put_cbid (s : State) (k : Bytes) (a : CBid) :
    only a.collection { s with cbids := s.cbids.insert k a } =
      { only a.collection s with cbids := (only a.collection s).cbids.insert k a } := by
  unfold only
  simp only
  rw [AMap.keep_insert _ _ _ _ (by simp)]

theorem only_bump (c : Addr) (s : State) (n : Nat) : { only c s with nonce := n } = only c { s with nonce := n } := rfl

/-! ### Handlers -/

section
variable (hinj : HashInj p) (hpf : PrefixFree p) (hns : NoSlash p) {s : State} (hw : WF p s) {c : Addr} (hc : p.valid c = true)
include hinj hpf hns hw hc

theorem only_setAsk (ctx : Ctx) (sender : Addr) (funds : List Coin) (tok : Bytes) (d : Details) (now : Bool) :
    executeSetAsk p ctx sender funds c tok d now (only c s) = onlyRes c (executeSetAsk p ctx sender funds c tok d now s) := by
  unfold executeSetAsk
  rw [only_price]
  simp only [onlyRes, map_bind]
  refine bind_same fun _ _ => bind_same fun _ _ => bind_same fun _ _ => bind_same fun _ _ => bind_same fun _ _ => bind_same fun _ _ => ?_
  rw [only_matchBid hns hw hc (by rfl)]
  cases (Ask.new p sender c tok d).matchWithBid p s with
  | some mb => exact only_sale ctx s c _ _ _ _ _
  | none =>
    cases now with
    | true => rfl
    | false =>
      simp only [Bool.false_eq_true, if_false, map_bind]
      rw [show (only c s).asks.get? (Ask.new p sender c tok d).id = s.asks.get? (Ask.new p sender c tok d).id from
        only_askAt hinj hpf hw hc tok]
      refine bind_same fun _ _ => ?_
      exact congrArg (fun x => Except.ok (x, _)) (only_put_ask s _ (Ask.new p sender c tok d)).symm

theorem only_setBid {ctx : Ctx} {sender : Addr} {funds : List Coin} {tok : Bytes} {d : Details} {now : Bool}
    (hfr : s.bids.get? (Bid.new p sender c tok d ctx.height (nextNonce s)).id = none) :
    executeSetBid p ctx sender funds c tok d now (only c s) = onlyRes c (executeSetBid p ctx sender funds c tok d now s) := by
  unfold executeSetBid
  rw [only_price]
  simp only [onlyRes, map_bind]
  refine bind_same fun _ _ => bind_same fun _ _ => bind_same fun fn _ => ?_
  have h1 : (Bid.new p sender c tok d ctx.height (nextNonce (only c s))).matchWithAsk p { only c s with nonce := nextNonce (only c s) } =
      (Bid.new p sender c tok d ctx.height (nextNonce s)).matchWithAsk p { s with nonce := nextNonce s } :=
    only_matchAsk hinj hpf hw hc (b := Bid.new p sender c tok d ctx.height (nextNonce s)) rfl
  rw [h1]
  cases (Bid.new p sender c tok d ctx.height (nextNonce s)).matchWithAsk p { s with nonce := nextNonce s } with
  | some a =>
    simp only [map_bind]
    refine bind_same fun left _ => ?_
    have h2 := only_sale (p := p) ctx { s with nonce := nextNonce s } c a s.config
      (.bid (Bid.new p sender c tok d ctx.height (nextNonce s))) true []
    refine (congrArg (fun x => x >>= fun r => .ok (r.1, refund sender left r.2)) h2).trans ?_
    cases finalizeSale p ctx { s with nonce := nextNonce s } a s.config
      (.bid (Bid.new p sender c tok d ctx.height (nextNonce s))) true [] <;> rfl
  | none =>
    cases now with
    | true => rfl
    | false =>
      simp only [Bool.false_eq_true, if_false, map_bind]
      refine bind_same fun _ _ => ?_
      have h3 : (only c s).bids.get? (Bid.new p sender c tok d ctx.height (nextNonce s)).id = none := by
        refine (AMap.get?_keep_pos fun v hv => ?_).trans hfr
        rw [hfr] at hv; cases hv
      have e1 : ensure ((only c s).bids.get? (Bid.new p sender c tok d ctx.height (nextNonce s)).id = none) .internal = .ok () :=
        ensure_eq h3
      have e2 : ensure (s.bids.get? (Bid.new p sender c tok d ctx.height (nextNonce s)).id = none) .internal = .ok () :=
        ensure_eq hfr
      refine (congrArg (fun x => x >>= _) e1).trans (Eq.trans ?_ (congrArg (fun x => x >>= _) e2).symm)
      exact congrArg (fun x => Except.ok (x, _))
        (only_put_bid { s with nonce := nextNonce s } _ (Bid.new p sender c tok d ctx.height (nextNonce s))).symm

theorem only_setCBid {ctx : Ctx} {sender : Addr} {funds : List Coin} {d : Details} {now : Bool}
    (hfr : s.cbids.get? (CBid.new p sender c d ctx.height (nextNonce s)).id = none) :
    executeSetCollectionBid p ctx sender funds c d now (only c s) =
      onlyRes c (executeSetCollectionBid p ctx sender funds c d now s) := by
  unfold executeSetCollectionBid
  rw [only_price]
  simp only [onlyRes, map_bind]
  refine bind_same fun _ _ => bind_same fun _ _ => bind_same fun fn _ => ?_
  have h1 : (CBid.new p sender c d ctx.height (nextNonce (only c s))).matchWithAsk p { only c s with nonce := nextNonce (only c s) } =
      (CBid.new p sender c d ctx.height (nextNonce s)).matchWithAsk p { s with nonce := nextNonce s } :=
    only_cmatchAsk s (b := CBid.new p sender c d ctx.height (nextNonce s)) rfl
  rw [h1]
  refine bind_same fun m _ => ?_
  cases m with
  | some a =>
    simp only [map_bind]
    refine bind_same fun left _ => ?_
    have h2 := only_sale (p := p) ctx { s with nonce := nextNonce s } c a s.config
      (.cbid (CBid.new p sender c d ctx.height (nextNonce s))) true []
    refine (congrArg (fun x => x >>= fun r => .ok (r.1, refund sender left r.2)) h2).trans ?_
    cases finalizeSale p ctx { s with nonce := nextNonce s } a s.config
      (.cbid (CBid.new p sender c d ctx.height (nextNonce s))) true [] <;> rfl
  | none =>
    cases now with
    | true => rfl
    | false =>
      simp only [Bool.false_eq_true, if_false, map_bind]
      refine bind_same fun _ _ => ?_
      have h3 : (only c s).cbids.get? (CBid.new p sender c d ctx.height (nextNonce s)).id = none := by
        refine (AMap.get?_keep_pos fun v hv => ?_).trans hfr
        rw [hfr] at hv; cases hv
      have e1 : ensure ((only c s).cbids.get? (CBid.new p sender c d ctx.height (nextNonce s)).id = none) .internal = .ok () :=
        ensure_eq h3
      have e2 : ensure (s.cbids.get? (CBid.new p sender c d ctx.height (nextNonce s)).id = none) .internal = .ok () :=
        ensure_eq hfr
      refine (congrArg (fun x => x >>= _) e1).trans (Eq.trans ?_ (congrArg (fun x => x >>= _) e2).symm)
      exact congrArg (fun x => Except.ok (x, _))
        (only_put_cbid { s with nonce := nextNonce s } _ (CBid.new p sender c d ctx.height (nextNonce s))).symm

end

section
variable (hinj : HashInj p) (hpf : PrefixFree p) (hns : NoSlash p) {s : State} (hw : WF p s)
include hinj hpf hns hw

theorem only_updateAsk {ctx : Ctx} {sender : Addr} {funds : List Coin} {id : Bytes} {d : Details} {a : Ask}
    (ha : s.asks.get? id = some a) :
    executeUpdateAsk p ctx sender funds id d (only a.collection s) =
      onlyRes a.collection (executeUpdateAsk p ctx sender funds id d s) := by
  unfold executeUpdateAsk
  rw [only_get_ask ha, ha]
  simp only [onlyRes, map_bind]
  refine bind_same fun _ _ => ?_
  simp only [orErr, ok_bind]
  refine bind_same fun _ _ => ?_
  rw [only_price]
  refine bind_same fun _ _ => ?_
  rw [only_matchBid hns hw (hw.ask ha).2.2.1 (by rfl)]
  cases ({ a with details := d } : Ask).matchWithBid p s with
  | some mb => exact only_sale ctx s a.collection _ _ _ _ _
  | none => exact congrArg (fun x => Except.ok (x, _)) (only_put_ask s _ { a with details := d }).symm

theorem only_removeAsk {sender : Addr} {funds : List Coin} {id : Bytes} {a : Ask} (ha : s.asks.get? id = some a) :
    executeRemoveAsk sender funds id (only a.collection s) = onlyRes a.collection (executeRemoveAsk sender funds id s) := by
  unfold executeRemoveAsk
  rw [only_get_ask ha, ha]
  simp only [onlyRes, map_bind]
  refine bind_same fun _ _ => ?_
  simp only [orErr, ok_bind]
  refine bind_same fun _ _ => ?_
  simp only [Except.map, only, AMap.keep_erase]

theorem only_acceptAsk {ctx : Ctx} {sender : Addr} {funds : List Coin} {id : Bytes} {d : Details} {a : Ask}
    (ha : s.asks.get? id = some a) :
    executeAcceptAsk p ctx sender funds id d (only a.collection s) =
      onlyRes a.collection (executeAcceptAsk p ctx sender funds id d s) := by
  unfold executeAcceptAsk
  rw [only_get_ask ha, ha]
  simp only [onlyRes, map_bind]
  refine bind_same fun fn _ => ?_
  simp only [orErr, ok_bind]
  refine bind_same fun _ _ => bind_same fun left _ => ?_
  have h2 := only_sale (p := p) ctx { s with nonce := nextNonce s } a.collection a s.config
    (.bid (Bid.new p sender a.collection a.tokenId d ctx.height (nextNonce s))) true []
  refine (congrArg (fun x => x >>= fun r => .ok (r.1, refund sender left r.2)) h2).trans ?_
  cases finalizeSale p ctx { s with nonce := nextNonce s } a s.config
    (.bid (Bid.new p sender a.collection a.tokenId d ctx.height (nextNonce s))) true [] <;> rfl

theorem only_updateBid {ctx : Ctx} {sender : Addr} {funds : List Coin} {id : Bytes} {d : Details} {b : Bid}
    (hb : s.bids.get? id = some b) :
    executeUpdateBid p ctx sender funds id d (only b.collection s) =
      onlyRes b.collection (executeUpdateBid p ctx sender funds id d s) := by
  unfold executeUpdateBid
  rw [only_get_bid hb, hb]
  simp only [orErr, ok_bind, onlyRes, map_bind]
  refine bind_same fun _ _ => ?_
  rw [only_price]
  refine bind_same fun _ _ => bind_same fun _ _ => bind_same fun _ _ => ?_
  rw [only_matchAsk hinj hpf hw (hw.bid hb).2.1 (by rfl)]
  cases ({ b with details := d } : Bid).matchWithAsk p s with
  | some a =>
    simp only [map_bind]
    refine bind_same fun left _ => ?_
    have h2 := only_sale (p := p) ctx s b.collection a s.config (.bid { b with details := d }) true []
    refine (congrArg (fun x => x >>= fun r => .ok (r.1, refund sender left r.2)) h2).trans ?_
    cases finalizeSale p ctx s a s.config (.bid { b with details := d }) true [] <;> rfl
  | none =>
    simp only [map_bind]
    refine bind_same fun _ _ => ?_
    exact congrArg (fun x => Except.ok (x, _)) (only_put_bid s _ { b with details := d }).symm

theorem only_removeBid {sender : Addr} {funds : List Coin} {id : Bytes} {a : Bid} (ha : s.bids.get? id = some a) :
    executeRemoveBid sender funds id (only a.collection s) = onlyRes a.collection (executeRemoveBid sender funds id s) := by
  unfold executeRemoveBid
  rw [only_get_bid ha, ha]
  simp only [onlyRes, map_bind]
  refine bind_same fun _ _ => ?_
  simp only [orErr, ok_bind]
  refine bind_same fun _ _ => ?_
  simp only [Except.map, only, AMap.keep_erase]

theorem only_acceptBid {ctx : Ctx} {sender : Addr} {id : Bytes} {d : Details} {b : Bid} (hb : s.bids.get? id = some b) :
    executeAcceptBid p ctx sender id d (only b.collection s) = onlyRes b.collection (executeAcceptBid p ctx sender id d s) := by
  unfold executeAcceptBid
  rw [only_get_bid hb, hb]
  simp only [orErr, ok_bind, onlyRes, map_bind]
  rw [only_acceptor hinj hpf hw (hw.bid hb).2.1]
  refine bind_same fun _ _ => bind_same fun _ _ => ?_
  exact only_sale ctx s b.collection _ _ _ _ _

theorem only_updateCBid {ctx : Ctx} {sender : Addr} {funds : List Coin} {id : Bytes} {d : Details} {b : CBid}
    (hb : s.cbids.get? id = some b) :
    executeUpdateCollectionBid p ctx sender funds id d (only b.collection s) =
      onlyRes b.collection (executeUpdateCollectionBid p ctx sender funds id d s) := by
  unfold executeUpdateCollectionBid
  rw [only_get_cbid hb, hb]
  simp only [orErr, ok_bind, onlyRes, map_bind]
  refine bind_same fun _ _ => ?_
  rw [only_price]
  refine bind_same fun _ _ => bind_same fun _ _ => bind_same fun _ _ => ?_
  rw [only_cmatchAsk s (by rfl)]
  refine bind_same fun m _ => ?_
  cases m with
  | some a =>
    simp only [map_bind]
    refine bind_same fun left _ => ?_
    have h2 := only_sale (p := p) ctx s b.collection a s.config (.cbid { b with details := d }) true []
    refine (congrArg (fun x => x >>= fun r => .ok (r.1, refund sender left r.2)) h2).trans ?_
    cases finalizeSale p ctx s a s.config (.cbid { b with details := d }) true [] <;> rfl
  | none =>
    simp only [map_bind]
    refine bind_same fun _ _ => ?_
    exact congrArg (fun x => Except.ok (x, _)) (only_put_cbid s _ { b with details := d }).symm

theorem only_removeCBid {sender : Addr} {funds : List Coin} {id : Bytes} {a : CBid} (ha : s.cbids.get? id = some a) :
    executeRemoveCollectionBid sender funds id (only a.collection s) =
      onlyRes a.collection (executeRemoveCollectionBid sender funds id s) := by
  unfold executeRemoveCollectionBid
  rw [only_get_cbid ha, ha]
  simp only [onlyRes, map_bind]
  refine bind_same fun _ _ => ?_
  simp only [orErr, ok_bind]
  refine bind_same fun _ _ => ?_
  simp only [Except.map, only, AMap.keep_erase]

theorem only_acceptCBid {ctx : Ctx} {sender : Addr} {id tok : Bytes} {d : Details} {b : CBid} (hb : s.cbids.get? id = some b) :
    executeAcceptCollectionBid p ctx sender id tok d (only b.collection s) =
      onlyRes b.collection (executeAcceptCollectionBid p ctx sender id tok d s) := by
  unfold executeAcceptCollectionBid
  rw [only_get_cbid hb, hb]
  simp only [orErr, ok_bind, onlyRes, map_bind]
  rw [only_acceptor hinj hpf hw (hw.cbid hb).2.1]
  refine bind_same fun _ _ => bind_same fun _ _ => ?_
  exact only_sale ctx s b.collection _ _ _ _ _

end

/-! ### Calls about other collections -/

theorem others_sale {s : State} {a : Ask} {mb : MatchingBid} {c : Addr}
    (ha : ∀ v, s.asks.get? a.id = some v → v.collection ≠ c)
    (hb : ∀ b, mb = .bid b → ∀ v, s.bids.get? b.id = some v → v.collection ≠ c)
    (hcb : ∀ b, mb = .cbid b → ∀ v, s.cbids.get? b.id = some v → v.collection ≠ c) :
    only c (afterSale s a mb) = only c s := by
  have h1 : (s.asks.erase a.id).keep (fun _ a => decide (a.collection = c)) = s.asks.keep (fun _ a => decide (a.collection = c)) :=
    AMap.keep_erase_out _ _ _ fun v hv => decide_eq_false (ha v hv)
  cases mb with
  | bid b =>
    have h2 : (s.bids.erase b.id).keep (fun _ a => decide (a.collection = c)) = s.bids.keep (fun _ a => decide (a.collection = c)) :=
      AMap.keep_erase_out _ _ _ fun v hv => decide_eq_false (hb b rfl v hv)
    simp only [afterSale, removeMatching, only, h1, h2]
  | cbid b =>
    have h2 : (s.cbids.erase b.id).keep (fun _ a => decide (a.collection = c)) = s.cbids.keep (fun _ a => decide (a.collection = c)) :=
      AMap.keep_erase_out _ _ _ fun v hv => decide_eq_false (hcb b rfl v hv)
    simp only [afterSale, removeMatching, only, h1, h2]

theorem others_put_ask {s : State} {k : Bytes} {a : Ask} {c : Addr} (ha : a.collection ≠ c)
    (hk : ∀ v, s.asks.get? k = some v → v.collection ≠ c) : only c { s with asks := s.asks.insert k a } = only c s := by
  unfold only
  simp only
  rw [AMap.keep_insert_out _ _ _ _ (by simp [ha]) (by intro v hv; simp [hk v hv])]

theorem others_put_bid {s : State} {k : Bytes} {a : Bid} {c : Addr} (ha : a.collection ≠ c)
    (hk : ∀ v, s.bids.get? k = some v → v.collection ≠ c) : only c { s with bids := s.bids.insert k a } = only c s := by
  unfold only
  simp only
  rw [AMap.keep_insert_out _ _ _ _ (by simp [ha]) (by intro v hv; simp [hk v hv])]

theorem others_put_cbid {s : State} {k : Bytes} {a : CBid} {c : Addr} (ha : a.collection ≠ c)
    (hk : ∀ v, s.cbids.get? k = some v → v.collection ≠ c) : only c { s with cbids := s.cbids.insert k a } = only c s := by
  unfold only
  simp only
  rw [AMap.keep_insert_out _ _ _ _ (by simp [ha]) (by intro v hv; simp [hk v hv])]

/-! ### C122 -/

/-- A call about a collection does exactly what it would do if the other collections had no orders: the same error or the
same messages and the same change of the collection's orders. -/
theorem C122_alone (hinj : HashInj p) (hpf : PrefixFree p) (hns : NoSlash p) {s : State} (hr : Reach p me NoWrap s) (hg : NoWrap s)
    {ctx : Ctx} {sender : Addr} {funds : List Coin} {m : Exec} {c : Addr} (hm : about s m = some c) :
    execute p ctx sender funds m (only c s) = onlyRes c (execute p ctx sender funds m s) := by
  have hw := Spec.Reach.wf hr
  have hn := Spec.Reach.nonce hr
  have hval : ∀ {x y : Bytes}, addrValidate p x = .ok y → p.valid x = true ∧ x = y := fun h => addrValidate_ok.mp h
  have hmap : ∀ {α β : Type} {o : Option α} {f : α → β} {b : β}, o.map f = some b → ∃ a, o = some a ∧ f a = b := by
    intro α β o f b h
    cases o with
    | none => cases h
    | some a => exact ⟨a, rfl, Option.some.inj h⟩
  cases m with
  | updateConfig => cases hm
  | setListingFee => cases hm
  | removeListingFee => cases hm
  | updateCollectionDenom coll den =>
    cases hm
    simp only [execute, executeUpdateCollectionDenom, onlyRes, map_bind]
    refine bind_same fun x hx => bind_same fun _ _ => ?_
    obtain ⟨_, rfl⟩ := hval hx
    simp only [Except.map, only]
    rw [AMap.keep_insert _ _ _ _ (by simp)]
  | setAsk coll tok d =>
    cases hm
    simp only [execute, onlyRes, map_bind]
    refine bind_same fun x hx => bind_same fun _ _ => ?_
    obtain ⟨hv, rfl⟩ := hval hx
    exact only_setAsk hinj hpf hns hw hv _ _ _ _ _ _
  | sellNft coll tok d =>
    cases hm
    simp only [execute, onlyRes, map_bind]
    refine bind_same fun x hx => bind_same fun _ _ => ?_
    obtain ⟨hv, rfl⟩ := hval hx
    exact only_setAsk hinj hpf hns hw hv _ _ _ _ _ _
  | setBid coll tok d =>
    cases hm
    simp only [execute, onlyRes, map_bind]
    refine bind_same fun x hx => bind_same fun _ _ => ?_
    obtain ⟨hv, rfl⟩ := hval hx
    exact only_setBid hinj hpf hns hw hv (fresh_bid hn hinj hg _ _ _ _ _)
  | buySpecificNft coll tok d =>
    cases hm
    simp only [execute, onlyRes, map_bind]
    refine bind_same fun x hx => bind_same fun _ _ => ?_
    obtain ⟨hv, rfl⟩ := hval hx
    exact only_setBid hinj hpf hns hw hv (fresh_bid hn hinj hg _ _ _ _ _)
  | setCollectionBid coll d =>
    cases hm
    simp only [execute, onlyRes, map_bind]
    refine bind_same fun x hx => bind_same fun _ _ => ?_
    obtain ⟨hv, rfl⟩ := hval hx
    exact only_setCBid hinj hpf hns hw hv (fresh_cbid hn hinj hg _ _ _ _)
  | buyCollectionNft coll d =>
    cases hm
    simp only [execute, onlyRes, map_bind]
    refine bind_same fun x hx => bind_same fun _ _ => ?_
    obtain ⟨hv, rfl⟩ := hval hx
    exact only_setCBid hinj hpf hns hw hv (fresh_cbid hn hinj hg _ _ _ _)
  | removeAsk id => obtain ⟨a, ha, rfl⟩ := hmap hm; exact only_removeAsk hinj hpf hns hw ha
  | updateAsk id d =>
    obtain ⟨a, ha, rfl⟩ := hmap hm
    simp only [execute, onlyRes, map_bind]
    exact bind_same fun _ _ => only_updateAsk hinj hpf hns hw ha
  | acceptAsk id d =>
    obtain ⟨a, ha, rfl⟩ := hmap hm
    simp only [execute, onlyRes, map_bind]
    exact bind_same fun _ _ => only_acceptAsk hinj hpf hns hw ha
  | removeBid id => obtain ⟨a, ha, rfl⟩ := hmap hm; exact only_removeBid hinj hpf hns hw ha
  | updateBid id d =>
    obtain ⟨a, ha, rfl⟩ := hmap hm
    simp only [execute, onlyRes, map_bind]
    exact bind_same fun _ _ => only_updateBid hinj hpf hns hw ha
  | acceptBid id d =>
    obtain ⟨a, ha, rfl⟩ := hmap hm
    simp only [execute, onlyRes, map_bind]
    exact bind_same fun _ _ => only_acceptBid hinj hpf hns hw ha
  | removeCollectionBid id => obtain ⟨a, ha, rfl⟩ := hmap hm; exact only_removeCBid hinj hpf hns hw ha
  | updateCollectionBid id d =>
    obtain ⟨a, ha, rfl⟩ := hmap hm
    simp only [execute, onlyRes, map_bind]
    exact bind_same fun _ _ => only_updateCBid hinj hpf hns hw ha
  | acceptCollectionBid id tok d =>
    obtain ⟨a, ha, rfl⟩ := hmap hm
    simp only [execute, onlyRes, map_bind]
    exact bind_same fun _ _ => only_acceptCBid hinj hpf hns hw ha

/-- So do calls that change the configuration. -/
theorem C122_global {ctx : Ctx} {sender : Addr} {funds : List Coin} {m : Exec} {s : State} (c : Addr) (hm : Global m = true) :
    execute p ctx sender funds m (only c s) = onlyRes c (execute p ctx sender funds m s) := by
  cases m <;> try cases hm
  · simp only [execute, executeUpdateConfig, onlyRes, map_bind]; rfl
  · simp only [execute, executeSetListingFee, onlyRes, map_bind]; rfl
  · simp only [execute, executeRemoveListingFee, onlyRes, map_bind]; rfl

/-- A call about another collection leaves a collection's orders and denom and the configuration alone. -/
theorem C122_others (hlim : 1 ≤ p.maxLimit) (hinj : HashInj p) (hpf : PrefixFree p) (hns : NoSlash p) {s s' : State}
    (hr : Reach p me NoWrap s) (hg : NoWrap s) {ctx : Ctx} {sender : Addr} {funds : List Coin} {m : Exec} {msgs : List Msg}
    {c c' : Addr} (hm : about s m = some c') (hne : c' ≠ c) (h : execute p ctx sender funds m s = .ok (s', msgs)) :
    only c s' = { only c s with nonce := s'.nonce } := by
  have hw := Spec.Reach.wf hr
  have hn := Spec.Reach.nonce hr
  have askAt : ∀ {coll tok : Bytes}, p.valid coll = true → coll ≠ c → ∀ v, s.asks.get? (askId p coll tok) = some v → v.collection ≠ c := by
    intro coll tok hv hc v hv'
    obtain ⟨_, h2, h3, _⟩ := hw.ask hv'
    rw [← (askId_inj hinj hpf hv h3 h2).1]; exact hc
  have askOf : ∀ {id : Bytes} {a : Ask}, s.asks.get? id = some a → a.collection ≠ c → ∀ v, s.asks.get? a.id = some v → v.collection ≠ c := by
    intro id a ha hc v hv
    rw [(hw.ask ha).1, ha] at hv; cases hv; exact hc
  have bidOf : ∀ {id : Bytes} {a : Bid}, s.bids.get? id = some a → a.collection ≠ c → ∀ v, s.bids.get? a.id = some v → v.collection ≠ c := by
    intro id a ha hc v hv
    rw [(hw.bid ha).1, ha] at hv; cases hv; exact hc
  have cbidOf : ∀ {id : Bytes} {a : CBid}, s.cbids.get? id = some a → a.collection ≠ c → ∀ v, s.cbids.get? a.id = some v → v.collection ≠ c := by
    intro id a ha hc v hv
    rw [(hw.cbid ha).1, ha] at hv; cases hv; exact hc
  have freshB : ∀ (tok : Bytes) (d : Details) (coll : Addr) (v : Bid),
      s.bids.get? (Bid.new p sender coll tok d ctx.height (nextNonce s)).id = some v → v.collection ≠ c := by
    intro tok d coll v hv
    rw [fresh_bid hn hinj hg] at hv; cases hv
  have freshC : ∀ (d : Details) (coll : Addr) (v : CBid),
      s.cbids.get? (CBid.new p sender coll d ctx.height (nextNonce s)).id = some v → v.collection ≠ c := by
    intro d coll v hv
    rw [fresh_cbid hn hinj hg] at hv; cases hv
  have matched : ∀ {a : Ask} {mb : MatchingBid}, p.valid a.collection = true → a.collection ≠ c → a.matchWithBid p s = some mb →
      (∀ b, mb = .bid b → ∀ v, s.bids.get? b.id = some v → v.collection ≠ c) ∧
      (∀ b, mb = .cbid b → ∀ v, s.cbids.get? b.id = some v → v.collection ≠ c) := by
    intro a mb hv hc hmb
    constructor
    · rintro b rfl
      obtain ⟨⟨id, hb⟩, hi, _⟩ := matchWithBid_bid hlim hmb
      refine bidOf hb ?_
      rw [(indexStr_inj (hns _ (hw.bid hb).2.1) (hns _ hv) hi).1]; exact hc
    · rintro b rfl
      obtain ⟨⟨id, hb⟩, hi, _⟩ := matchWithBid_cbid hlim hmb
      exact cbidOf hb (by rw [hi]; exact hc)
  cases execute_eff h with
  | config => cases hm
  | setFee => cases hm
  | rmFee => cases hm
  | denom coll den =>
    cases hm
    simp only [only]
    rw [AMap.keep_insert_out _ _ _ _ (by simp [hne]) (by intro v hv; simp [hne])]
  | restAsk coll tok d pay hv =>
    cases hm
    exact others_put_ask hne (askAt hv hne)
  | sellAsk _ coll tok d pay mb hm' hv _ _ _ _ _ _ _ hmb x =>
    have hc : coll = c' := by rcases hm' with rfl | rfl <;> exact Option.some.inj hm
    subst hc
    obtain ⟨h1, h2⟩ := matched (a := Ask.new p sender coll tok d) hv hne hmb
    rw [others_sale (askAt hv hne) h1 h2, afterSale_nonce]; rfl
  | updAsk id d a _ _ ha =>
    rw [about, ha] at hm; cases hm
    exact others_put_ask hne (askOf ha hne)
  | updSell id d a mb _ _ ha _ _ hmb x =>
    rw [about, ha] at hm; cases hm
    obtain ⟨h1, h2⟩ := matched (a := { a with details := d }) (hw.ask ha).2.2.1 hne hmb
    rw [others_sale (a := { a with details := d }) (fun v hv => askOf ha hne v hv) h1 h2, afterSale_nonce]; rfl
  | rmAsk id a _ ha =>
    rw [about, ha] at hm; cases hm
    simp only [only]
    rw [AMap.keep_erase_out _ _ _ (by intro v hv; simp [askOf ha hne v hv])]
  | accAsk id d a fn left hd hn' ha _ _ x =>
    rw [about, ha] at hm; cases hm
    rw [others_sale (s := bump s) (askOf ha hne) (by rintro b ⟨⟩; exact freshB _ _ _) (by rintro b ⟨⟩), afterSale_nonce]; rfl
  | restBid coll tok d fn left hv =>
    cases hm
    exact others_put_bid (s := bump s) hne (freshB _ _ _)
  | buyBid _ coll tok d fn left a hm' hv _ _ _ _ ha _ x =>
    have hc : coll = c' := by rcases hm' with rfl | rfl <;> exact Option.some.inj hm
    subst hc
    obtain ⟨h1, _⟩ := bidMatch_some ha
    have h2 : a.id = askId p coll tok := (hw.ask h1).1
    rw [others_sale (s := bump s) (by rw [h2]; exact askAt hv hne) (by rintro b ⟨⟩; exact freshB _ _ _) (by rintro b ⟨⟩), afterSale_nonce]; rfl
  | updBid id d b fn fa left _ hb =>
    rw [about, hb] at hm; cases hm
    exact others_put_bid hne (bidOf hb hne)
  | updBuy id d b a fn fa left _ hb _ _ _ _ ha _ x =>
    rw [about, hb] at hm; cases hm
    obtain ⟨h1, _⟩ := bidMatch_some ha
    have h2 : a.id = askId p b.collection b.tokenId := (hw.ask h1).1
    rw [others_sale (by rw [h2]; exact askAt (hw.bid hb).2.1 hne) (by rintro b' ⟨⟩; exact fun v hv => bidOf hb hne v hv) (by rintro b ⟨⟩), afterSale_nonce]; rfl
  | rmBid id b _ hb =>
    rw [about, hb] at hm; cases hm
    simp only [only]
    rw [AMap.keep_erase_out _ _ _ (by intro v hv; simp [bidOf hb hne v hv])]
  | accBid id d b a _ hb _ ha x =>
    rw [about, hb] at hm; cases hm
    have h1 : a.id = askId p b.collection b.tokenId := by
      unfold acceptorAsk at ha
      split at ha
      case h_1 a' ha' =>
        simp only [bind_ok] at ha
        obtain ⟨_, _, h⟩ := ha
        cases h; exact (hw.ask ha').1
      case h_2 =>
        simp only [bind_ok] at ha
        obtain ⟨_, _, h⟩ := ha
        cases h; rfl
    rw [others_sale (by rw [h1]; exact askAt (hw.bid hb).2.1 hne) (by rintro b' ⟨⟩; exact fun v hv => bidOf hb hne v hv) (by rintro b ⟨⟩), afterSale_nonce]; rfl
  | restCBid coll d fn left hv =>
    cases hm
    exact others_put_cbid (s := bump s) hne (freshC _ _)
  | buyCBid _ coll d fn left a hm' hv _ _ _ _ ha _ x =>
    have hc : coll = c' := by rcases hm' with rfl | rfl <;> exact Option.some.inj hm
    subst hc
    obtain ⟨⟨id, h1⟩, h2, _⟩ := cbidMatch_some hlim ha
    rw [others_sale (s := bump s) (askOf h1 (by rw [h2]; exact hne)) (by rintro b ⟨⟩) (by rintro b ⟨⟩; exact freshC _ _), afterSale_nonce]; rfl
  | updCBid id d b fn fa left _ hb =>
    rw [about, hb] at hm; cases hm
    exact others_put_cbid hne (cbidOf hb hne)
  | updCBuy id d b a fn fa left _ hb _ _ _ _ ha _ x =>
    rw [about, hb] at hm; cases hm
    obtain ⟨⟨id, h1⟩, h2, _⟩ := cbidMatch_some hlim ha
    rw [others_sale (askOf h1 (by rw [h2]; exact hne)) (by rintro b ⟨⟩) (by rintro b' ⟨⟩; exact fun v hv => cbidOf hb hne v hv), afterSale_nonce]; rfl
  | rmCBid id b _ hb =>
    rw [about, hb] at hm; cases hm
    simp only [only]
    rw [AMap.keep_erase_out _ _ _ (by intro v hv; simp [cbidOf hb hne v hv])]
  | accCBid id tok d b a _ hb _ ha x =>
    rw [about, hb] at hm; cases hm
    have h1 : a.id = askId p b.collection tok := by
      unfold acceptorAsk at ha
      split at ha
      case h_1 a' ha' =>
        simp only [bind_ok] at ha
        obtain ⟨_, _, h⟩ := ha
        cases h; exact (hw.ask ha').1
      case h_2 =>
        simp only [bind_ok] at ha
        obtain ⟨_, _, h⟩ := ha
        cases h; rfl
    rw [others_sale (by rw [h1]; exact askAt (hw.cbid hb).2.1 hne) (by rintro b ⟨⟩) (by rintro b' ⟨⟩; exact fun v hv => cbidOf hb hne v hv), afterSale_nonce]; rfl

theorem about_or_global {s s' : State} {ctx : Ctx} {sender : Addr} {funds : List Coin} {m : Exec} {msgs : List Msg}
    (h : execute p ctx sender funds m s = .ok (s', msgs)) : (∃ c, about s m = some c) ∨ Global m = true := by
  cases execute_eff h with
  | config => exact .inr rfl
  | setFee => exact .inr rfl
  | rmFee => exact .inr rfl
  | sellAsk _ coll tok d pay mb hm => rcases hm with rfl | rfl <;> exact .inl ⟨_, rfl⟩
  | buyBid _ coll tok d fn left a hm => rcases hm with rfl | rfl <;> exact .inl ⟨_, rfl⟩
  | buyCBid _ coll d fn left a hm => rcases hm with rfl | rfl <;> exact .inl ⟨_, rfl⟩
  | denom => exact .inl ⟨_, rfl⟩
  | restAsk => exact .inl ⟨_, rfl⟩
  | restBid => exact .inl ⟨_, rfl⟩
  | restCBid => exact .inl ⟨_, rfl⟩
  | updAsk id d a _ _ ha => exact .inl ⟨a.collection, by rw [about, ha]; rfl⟩
  | updSell id d a mb _ _ ha => exact .inl ⟨a.collection, by rw [about, ha]; rfl⟩
  | rmAsk id a _ ha => exact .inl ⟨a.collection, by rw [about, ha]; rfl⟩
  | accAsk id d a fn left hd hn' ha => exact .inl ⟨a.collection, by rw [about, ha]; rfl⟩
  | updBid id d b fn fa left _ hb => exact .inl ⟨b.collection, by rw [about, hb]; rfl⟩
  | updBuy id d b a fn fa left _ hb => exact .inl ⟨b.collection, by rw [about, hb]; rfl⟩
  | rmBid id b _ hb => exact .inl ⟨b.collection, by rw [about, hb]; rfl⟩
  | accBid id d b a _ hb => exact .inl ⟨b.collection, by rw [about, hb]; rfl⟩
  | updCBid id d b fn fa left _ hb => exact .inl ⟨b.collection, by rw [about, hb]; rfl⟩
  | updCBuy id d b a fn fa left _ hb => exact .inl ⟨b.collection, by rw [about, hb]; rfl⟩
  | rmCBid id b _ hb => exact .inl ⟨b.collection, by rw [about, hb]; rfl⟩
  | accCBid id tok d b a _ hb => exact .inl ⟨b.collection, by rw [about, hb]; rfl⟩

theorem about_only {s : State} {m : Exec} {c : Addr} (h : about s m = some c) : about (only c s) m = some c := by
  have hmap : ∀ {α β : Type} {o : Option α} {f : α → β} {b : β}, o.map f = some b → ∃ a, o = some a ∧ f a = b := by
    intro α β o f b h
    cases o with
    | none => cases h
    | some a => exact ⟨a, rfl, Option.some.inj h⟩
  cases m <;> try exact h
  all_goals obtain ⟨a, ha, rfl⟩ := hmap h
  all_goals first
    | exact congrArg (Option.map Ask.collection) (only_get_ask ha)
    | exact congrArg (Option.map Bid.collection) (only_get_bid ha)
    | exact congrArg (Option.map CBid.collection) (only_get_cbid ha)

/-- Every collection's part of the marketplace evolves as a marketplace with this collection alone. -/
theorem C122_history (hlim : 1 ≤ p.maxLimit) (hinj : HashInj p) (hpf : PrefixFree p) (hns : NoSlash p) {s : State}
    (hr : Reach p me NoWrap s) (c : Addr) : Alone p me c (only c s) := by
  induction hr with
  | @init cf s h =>
    have : only c s = s := by
      unfold instantiate at h
      simp only [bind_ok] at h
      obtain ⟨_, _, _, _, h⟩ := h
      cases h; rfl
    rw [this]; exact .init h
  | @call s s' ctx sender funds m msgs hr hg hself hne h ih =>
    have key : ∀ (hx : execute p ctx sender funds m (only c s) = onlyRes c (execute p ctx sender funds m s)),
        execute p ctx sender funds m (only c s) = .ok (only c s', msgs) := by
      intro hx; rw [hx, h]; rfl
    rcases about_or_global h with ⟨c', hm⟩ | hm
    · by_cases hc : c' = c
      · subst hc
        exact .call ih hself hne (.inl (about_only hm)) (key (C122_alone hinj hpf hns hr hg hm))
      · rw [C122_others hlim hinj hpf hns hr hg hm hc h]
        exact .tick ih _
    · exact .call ih hself hne (.inr hm) (key (C122_global c hm))

end

namespace Sample

/-- Another collection; a bid on a token of the same name is added to the orders of the sample state. -/
def coll2 : Addr := [10, 10, 10]
def s4' : State := (run (ctx (some self)) carol [⟨ust, 70⟩] (.setBid coll2 tok (det 70)) s4).1
theorem r4' : Reach P self NoWrap s4' := next r4 (by decide +kernel) rfl (by decide) (by decide +kernel)

/-- Accepting the bid on the first collection's token is a call about the first collection, it succeeds, and there is an order
of the other collection that it would not see. -/
example : about s4' (.acceptBid bid (det 80)) = some coll ∧ NoWrap s4' ∧
    ok (ctx (some self)) alice [] (.acceptBid bid (det 80)) s4' = true ∧
    s4'.bids.l.length = 2 ∧ (only coll s4').bids.l.length = 1 ∧ (only coll2 s4').bids.l.length = 1 ∧
    (only coll s4').asks.l.length = 1 ∧ (only coll2 s4').asks.l.length = 0 := by
  refine ⟨by decide +kernel, by decide +kernel, by decide +kernel, by decide +kernel, by decide +kernel, by decide +kernel, by decide +kernel, by decide +kernel⟩

example : execute P (ctx (some self)) alice [] (.acceptBid bid (det 80)) (only coll s4') =
    onlyRes coll (execute P (ctx (some self)) alice [] (.acceptBid bid (det 80)) s4') :=
  C122_alone hashInj prefixFree noSlash r4' (by decide +kernel) (by decide +kernel)

/-- To the other collection nothing happens. -/
example : only coll2 (run (ctx (some self)) alice [] (.acceptBid bid (det 80)) s4').1 =
    { only coll2 s4' with nonce := (run (ctx (some self)) alice [] (.acceptBid bid (det 80)) s4').1.nonce } :=
  C122_others (m := .acceptBid bid (det 80)) (c' := coll) (by decide) hashInj prefixFree noSlash r4' (by decide +kernel)
    (by decide +kernel) (by decide) (run_eq (c := ctx (some self)) (sender := alice) (funds := []) (by decide +kernel))

end Sample
end Verif.V2

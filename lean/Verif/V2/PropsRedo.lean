/-
Marketplace v2: changing an order in place, compared with withdrawing it and placing it anew (C156).
-/
import Verif.V2.PropsSize

namespace Verif.V2
open Verif Spec

namespace Spec

/-- Collections and royalty registries answer alike. -/
def SameRoyalties (q q' : Queries) : Prop := q.collInfo = q'.collInfo ∧ q.registry = q'.registry

/-- Two bids that differ at most in their id. -/
def SameBid (b b' : Bid) : Prop :=
  b.creator = b'.creator ∧ b.collection = b'.collection ∧ b.tokenId = b'.tokenId ∧ b.details = b'.details

/-- Two collection bids that differ at most in their id. -/
def SameCBid (b b' : CBid) : Prop := b.creator = b'.creator ∧ b.collection = b'.collection ∧ b.details = b'.details

/-- Two maps of orders agree, but for the order that has the id `i` in one and `j` in the other. -/
def SameBut {V : Type} (same : V → V → Prop) (i j : Bytes) (m m' : AMap Bytes V) : Prop :=
  (∀ k, k ≠ i → k ≠ j → m.get? k = m'.get? k) ∧ (i ≠ j → m.get? j = none ∧ m'.get? i = none) ∧
  match m.get? i, m'.get? j with
  | some b, some b' => same b b'
  | none, none => True
  | _, _ => False

/-- Two lists of messages are the same, but for coins returned to `who`. In each denom, `x` with the coins returned in the first is as much
as `y` with those returned in the second. -/
def SameButChange (who : Addr) (x y : Denom → Nat) (m m' : List Msg) : Prop :=
  ∃ sale r r', m = sale ++ r ∧ m' = sale ++ r' ∧ (∀ z ∈ r ++ r', ∃ cs, z = .send who cs) ∧
    ∀ d, x d + paidOut d r = y d + paidOut d r'

end Spec

variable {p : Params} {me : Addr} {G : State → Prop}

theorem SaleParts.same {ctx ctx' : Ctx} {ask : Ask} {c : Config} {mb mb' : MatchingBid} {abb : Bool}
    (hq : SameRoyalties ctx.q ctx'.q) (hd : mb.details = mb'.details) (hrec : mb.recipient = mb'.recipient)
    (x : SaleParts p ctx ask c mb abb) (x' : SaleParts p ctx' ask c mb' abb) : x.msgs = x'.msgs := by
  obtain ⟨pf, roy, fees, pays, h1, h2, h3, h4⟩ := x
  obtain ⟨pf', roy', fees', pays', h1', h2', h3', h4'⟩ := x'
  have ht : saleTerms ask mb abb = saleTerms ask mb' abb := by unfold saleTerms; rw [hd]
  have e2 : roy = roy' := by
    have : fetchOrSetRoyalties ctx p.valid c.royaltyRegistry ask.collection =
        fetchOrSetRoyalties ctx' p.valid c.royaltyRegistry ask.collection := by
      unfold fetchOrSetRoyalties fetchRoyaltyEntry
      rw [hq.1, hq.2]
    exact Except.ok.inj (h2.symm.trans (this.trans h2'))
  subst e2
  rw [ht] at h1 h3 h4
  have e1 := Except.ok.inj (h1.symm.trans h1')
  subst e1
  have e3 := Except.ok.inj (h3.symm.trans h3')
  subst e3
  have e4 := Except.ok.inj (h4.symm.trans h4')
  subst e4
  simp only [SaleParts.msgs, hrec]

theorem refund_split (sender : Addr) (left : List Coin) (ms : List Msg) : ∃ r, refund sender left ms = ms ++ r ∧
    (∀ z ∈ r, ∃ cs, z = .send sender cs) ∧ ∀ d, paidOut d r = amountOf d left := by
  unfold refund
  split
  · rename_i h
    exact ⟨[], (List.append_nil _).symm, (fun _ h => nomatch h), fun d => (nbIsEmpty_amountOf h d).symm⟩
  · refine ⟨_, rfl, (fun z hz => ⟨left, List.mem_singleton.mp hz⟩), fun d => ?_⟩
    simp only [transferCoins, paidOut, Nat.add_zero]

/-! What the calls compared do. -/

theorem did_rmAsk {ctx : Ctx} {sender : Addr} {funds : List Coin} {id : Bytes} {s s' : State} {ms : List Msg}
    (h : execute p ctx sender funds (.removeAsk id) s = .ok (s', ms)) : ∃ a, s.asks.get? id = some a ∧ sender = a.creator ∧
      s' = { s with asks := s.asks.erase a.id } := by
  cases execute_eff h with
  | rmAsk _ a _ ha hcr => exact ⟨a, ha, hcr, rfl⟩
  | sellAsk => exact absurd ‹_ ∨ _› (by simp)
  | buyBid => exact absurd ‹_ ∨ _› (by simp)
  | buyCBid => exact absurd ‹_ ∨ _› (by simp)

theorem did_setAsk {ctx : Ctx} {sender : Addr} {funds : List Coin} {coll tok : Bytes} {d : Details} {s s' : State} {ms : List Msg}
    (h : execute p ctx sender funds (.setAsk coll tok d) s = .ok (s', ms)) :
    (Ask.new p sender coll tok d).matchWithBid p s = none ∧
      s' = { s with asks := s.asks.insert (askId p coll tok) (Ask.new p sender coll tok d) } ∧
      ms = [.send s.config.feeManager funds, .nft coll tok ctx.self] ∨
    ∃ mb, (Ask.new p sender coll tok d).matchWithBid p s = some mb ∧ s' = afterSale s (Ask.new p sender coll tok d) mb ∧
      ∃ x : SaleParts p ctx (Ask.new p sender coll tok d) s.config mb false, ms = .send s.config.feeManager funds :: x.msgs := by
  cases execute_eff h with
  | restAsk _ _ _ pay hv hd hown htr hpr hf hpos hfee hm hn => exact .inl ⟨hm, rfl, by rw [hf]⟩
  | sellAsk _ _ _ _ pay mb hm hv hd hown htr hpr hf hpos hfee hmb x =>
    rcases hm with hm | hm <;> cases hm
    exact .inr ⟨mb, hmb, rfl, x, by rw [hf]⟩
  | buyBid => exact absurd ‹_ ∨ _› (by simp)
  | buyCBid => exact absurd ‹_ ∨ _› (by simp)

theorem did_updAsk {ctx : Ctx} {sender : Addr} {funds : List Coin} {id : Bytes} {d : Details} {s s' : State} {ms : List Msg}
    (h : execute p ctx sender funds (.updateAsk id d) s = .ok (s', ms)) : ∃ a, s.asks.get? id = some a ∧
    (({ a with details := d } : Ask).matchWithBid p s = none ∧
      s' = { s with asks := s.asks.insert a.id { a with details := d } } ∧ ms = [] ∨
    ∃ mb, ({ a with details := d } : Ask).matchWithBid p s = some mb ∧ s' = afterSale s { a with details := d } mb ∧
      ∃ x : SaleParts p ctx { a with details := d } s.config mb false, ms = x.msgs) := by
  cases execute_eff h with
  | updAsk _ _ a hf hd ha hcr hpr hm => exact ⟨a, ha, .inl ⟨hm, rfl, rfl⟩⟩
  | updSell _ _ a mb hf hd ha hcr hpr hm x => exact ⟨a, ha, .inr ⟨mb, hm, rfl, x, rfl⟩⟩
  | sellAsk => exact absurd ‹_ ∨ _› (by simp)
  | buyBid => exact absurd ‹_ ∨ _› (by simp)
  | buyCBid => exact absurd ‹_ ∨ _› (by simp)

theorem did_rmBid {ctx : Ctx} {sender : Addr} {funds : List Coin} {id : Bytes} {s s' : State} {ms : List Msg}
    (h : execute p ctx sender funds (.removeBid id) s = .ok (s', ms)) : ∃ b, s.bids.get? id = some b ∧ sender = b.creator ∧
      s' = { s with bids := s.bids.erase b.id } ∧ ms = [.send sender [b.details.price]] := by
  cases execute_eff h with
  | rmBid _ a _ ha hcr => exact ⟨a, ha, hcr, rfl, rfl⟩
  | sellAsk => exact absurd ‹_ ∨ _› (by simp)
  | buyBid => exact absurd ‹_ ∨ _› (by simp)
  | buyCBid => exact absurd ‹_ ∨ _› (by simp)

theorem did_setBid {ctx : Ctx} {sender : Addr} {funds : List Coin} {coll tok : Bytes} {d : Details} {s s' : State} {ms : List Msg}
    (h : execute p ctx sender funds (.setBid coll tok d) s = .ok (s', ms)) : ∃ b left,
    b = Bid.new p sender coll tok d ctx.height (nextNonce s) ∧
    (b.matchWithAsk p s = none ∧ s.bids.get? b.id = none ∧ s' = { s with nonce := nextNonce s, bids := s.bids.insert b.id b } ∧
      ms = refund sender left [] ∧ (∀ e, amountOf e left + d.price.inDenom e = amountOf e funds) ∨
    ∃ a, b.matchWithAsk p s = some a ∧ s' = afterSale (bump s) a (.bid b) ∧
      (∀ e, amountOf e left + a.details.price.inDenom e = amountOf e funds) ∧
      ∃ x : SaleParts p ctx a s.config (.bid b) true, ms = refund sender left x.msgs) := by
  cases execute_eff h with
  | restBid _ _ _ fn left hv hd htr hpr hn hm hl hnew =>
    exact ⟨_, left, rfl, .inl ⟨hm, hnew, rfl, rfl, fun e => ((nbSub_ok hl).1 e).trans ((nbNormalize_ok hn).1 e)⟩⟩
  | buyBid _ _ _ _ fn left a hm hv hd htr hpr hn ha hl x =>
    rcases hm with hm | hm <;> cases hm
    exact ⟨_, left, rfl, .inr ⟨a, ha, rfl, (fun e => ((nbSub_ok hl).1 e).trans ((nbNormalize_ok hn).1 e)), x, rfl⟩⟩
  | sellAsk => exact absurd ‹_ ∨ _› (by simp)
  | buyCBid => exact absurd ‹_ ∨ _› (by simp)

theorem did_updBid {ctx : Ctx} {sender : Addr} {funds : List Coin} {id : Bytes} {d : Details} {s s' : State} {ms : List Msg}
    (h : execute p ctx sender funds (.updateBid id d) s = .ok (s', ms)) : ∃ b left, s.bids.get? id = some b ∧
    (({ b with details := d } : Bid).matchWithAsk p s = none ∧ s' = { s with bids := s.bids.insert b.id { b with details := d } } ∧
      ms = refund sender left [] ∧
      (∀ e, amountOf e left + d.price.inDenom e = amountOf e funds + b.details.price.inDenom e) ∨
    ∃ a, ({ b with details := d } : Bid).matchWithAsk p s = some a ∧ s' = afterSale s a (.bid { b with details := d }) ∧
      (∀ e, amountOf e left + a.details.price.inDenom e = amountOf e funds + b.details.price.inDenom e) ∧
      ∃ x : SaleParts p ctx a s.config (.bid { b with details := d }) true, ms = refund sender left x.msgs) := by
  cases execute_eff h with
  | updBid _ _ b fn fa left hd hb hcr hpr hn hadd hm hl =>
    refine ⟨b, left, hb, .inl ⟨hm, rfl, rfl, fun e => ?_⟩⟩
    rw [(nbSub_ok hl).1 e, (nbAdd_ok hadd).1 e, (nbNormalize_ok hn).1 e]
  | updBuy _ _ b a fn fa left hd hb hcr hpr hn hadd ha hl x =>
    refine ⟨b, left, hb, .inr ⟨a, ha, rfl, (fun e => ?_), x, rfl⟩⟩
    rw [(nbSub_ok hl).1 e, (nbAdd_ok hadd).1 e, (nbNormalize_ok hn).1 e]
  | sellAsk => exact absurd ‹_ ∨ _› (by simp)
  | buyBid => exact absurd ‹_ ∨ _› (by simp)
  | buyCBid => exact absurd ‹_ ∨ _› (by simp)

theorem did_rmCBid {ctx : Ctx} {sender : Addr} {funds : List Coin} {id : Bytes} {s s' : State} {ms : List Msg}
    (h : execute p ctx sender funds (.removeCollectionBid id) s = .ok (s', ms)) : ∃ b, s.cbids.get? id = some b ∧ sender = b.creator ∧
      s' = { s with cbids := s.cbids.erase b.id } ∧ ms = [.send sender [b.details.price]] := by
  cases execute_eff h with
  | rmCBid _ a _ ha hcr => exact ⟨a, ha, hcr, rfl, rfl⟩
  | sellAsk => exact absurd ‹_ ∨ _› (by simp)
  | buyBid => exact absurd ‹_ ∨ _› (by simp)
  | buyCBid => exact absurd ‹_ ∨ _› (by simp)

theorem did_setCBid {ctx : Ctx} {sender : Addr} {funds : List Coin} {coll : Bytes} {d : Details} {s s' : State} {ms : List Msg}
    (h : execute p ctx sender funds (.setCollectionBid coll d) s = .ok (s', ms)) : ∃ b left,
    b = CBid.new p sender coll d ctx.height (nextNonce s) ∧
    (b.matchWithAsk p s = .ok none ∧ s.cbids.get? b.id = none ∧
      s' = { s with nonce := nextNonce s, cbids := s.cbids.insert b.id b } ∧
      ms = refund sender left [] ∧ (∀ e, amountOf e left + d.price.inDenom e = amountOf e funds) ∨
    ∃ a, b.matchWithAsk p s = .ok (some a) ∧ s' = afterSale (bump s) a (.cbid b) ∧
      (∀ e, amountOf e left + a.details.price.inDenom e = amountOf e funds) ∧
      ∃ x : SaleParts p ctx a s.config (.cbid b) true, ms = refund sender left x.msgs) := by
  cases execute_eff h with
  | restCBid _ _ fn left hv hd htr hpr hn hm hl hnew =>
    exact ⟨_, left, rfl, .inl ⟨hm, hnew, rfl, rfl, fun e => ((nbSub_ok hl).1 e).trans ((nbNormalize_ok hn).1 e)⟩⟩
  | buyCBid _ _ _ fn left a hm hv hd htr hpr hn ha hl x =>
    rcases hm with hm | hm <;> cases hm
    exact ⟨_, left, rfl, .inr ⟨a, ha, rfl, (fun e => ((nbSub_ok hl).1 e).trans ((nbNormalize_ok hn).1 e)), x, rfl⟩⟩
  | sellAsk => exact absurd ‹_ ∨ _› (by simp)
  | buyBid => exact absurd ‹_ ∨ _› (by simp)

theorem did_updCBid {ctx : Ctx} {sender : Addr} {funds : List Coin} {id : Bytes} {d : Details} {s s' : State} {ms : List Msg}
    (h : execute p ctx sender funds (.updateCollectionBid id d) s = .ok (s', ms)) : ∃ b left, s.cbids.get? id = some b ∧
    (({ b with details := d } : CBid).matchWithAsk p s = .ok none ∧
      s' = { s with cbids := s.cbids.insert b.id { b with details := d } } ∧ ms = refund sender left [] ∧
      (∀ e, amountOf e left + d.price.inDenom e = amountOf e funds + b.details.price.inDenom e) ∨
    ∃ a, ({ b with details := d } : CBid).matchWithAsk p s = .ok (some a) ∧ s' = afterSale s a (.cbid { b with details := d }) ∧
      (∀ e, amountOf e left + a.details.price.inDenom e = amountOf e funds + b.details.price.inDenom e) ∧
      ∃ x : SaleParts p ctx a s.config (.cbid { b with details := d }) true, ms = refund sender left x.msgs) := by
  cases execute_eff h with
  | updCBid _ _ b fn fa left hd hb hcr hpr hn hadd hm hl =>
    refine ⟨b, left, hb, .inl ⟨hm, rfl, rfl, fun e => ?_⟩⟩
    rw [(nbSub_ok hl).1 e, (nbAdd_ok hadd).1 e, (nbNormalize_ok hn).1 e]
  | updCBuy _ _ b a fn fa left hd hb hcr hpr hn hadd ha hl x =>
    refine ⟨b, left, hb, .inr ⟨a, ha, rfl, (fun e => ?_), x, rfl⟩⟩
    rw [(nbSub_ok hl).1 e, (nbAdd_ok hadd).1 e, (nbNormalize_ok hn).1 e]
  | sellAsk => exact absurd ‹_ ∨ _› (by simp)
  | buyBid => exact absurd ‹_ ∨ _› (by simp)
  | buyCBid => exact absurd ‹_ ∨ _› (by simp)

/-- Two refunds after the same messages. -/
theorem sameButChange {who : Addr} {sale : List Msg} {l l' : List Coin} {x y : Denom → Nat}
    (h : ∀ d, x d + amountOf d l = y d + amountOf d l') : SameButChange who x y (refund who l sale) (refund who l' sale) := by
  obtain ⟨r, e, h1, h2⟩ := refund_split who l sale
  obtain ⟨r', e', h1', h2'⟩ := refund_split who l' sale
  refine ⟨sale, r, r', e, e', ?_, fun d => by rw [h2, h2', h d]⟩
  intro z hz
  rcases List.mem_append.mp hz with hz | hz
  · exact h1 z hz
  · exact h1' z hz

/-- An order replaced by another one. -/
theorem sameBut_put {V : Type} {same : V → V → Prop} {m : AMap Bytes V} {i j : Bytes} {v w : V} (hs : same v w)
    (hn : (m.erase j).get? i = none) : SameBut same i j ((m.erase j).insert i v) (m.insert j w) := by
  refine ⟨?_, ?_, ?_⟩
  · intro k h1 h2
    rw [AMap.get?_insert, AMap.get?_insert, AMap.get?_erase, if_neg (Ne.symm h1), if_neg (Ne.symm h2), if_neg (Ne.symm h2)]
  · intro h
    rw [AMap.get?_erase, if_neg (Ne.symm h)] at hn
    exact ⟨by rw [AMap.get?_insert, if_neg h, AMap.get?_erase_self], by rw [AMap.get?_insert, if_neg (Ne.symm h), hn]⟩
  · rw [AMap.get?_insert_self, AMap.get?_insert_self]; exact hs

/-- An order gone. -/
theorem sameBut_gone {V : Type} {same : V → V → Prop} {m : AMap Bytes V} {i j : Bytes} (hn : m.get? i = none) :
    SameBut same i j ((m.erase j).erase i) (m.erase j) := by
  have hn' : (m.erase j).get? i = none := by
    rw [AMap.get?_erase]; split
    · rfl
    · exact hn
  rw [AMap.erase_eq_self hn']
  exact ⟨fun _ _ _ => rfl, fun _ => ⟨AMap.get?_erase_self _ _, hn'⟩, by rw [AMap.get?_erase_self, hn']; trivial⟩

/-! ### C156 -/

/-- Listings: the state is the same, and so are the messages, but for the listing fee and the transfer of the token into custody. -/
theorem C156_ask {ctx1 ctx2 ctx3 : Ctx} {sender : Addr} {f1 f2 f3 : List Coin} {id : Bytes} {d : Details} {a : Ask}
    {s s1 s2 s3 : State} {m1 m2 m3 : List Msg} (hr : Reach p me G s) (ha : s.asks.get? id = some a)
    (hq : SameRoyalties ctx2.q ctx3.q) (h1 : execute p ctx1 sender f1 (.removeAsk id) s = .ok (s1, m1))
    (h2 : execute p ctx2 sender f2 (.setAsk a.collection a.tokenId d) s1 = .ok (s2, m2))
    (h3 : execute p ctx3 sender f3 (.updateAsk id d) s = .ok (s3, m3)) :
    s2 = s3 ∧ (m2 = .send s.config.feeManager f2 :: m3 ∨
      m3 = [] ∧ m2 = [.send s.config.feeManager f2, .nft a.collection a.tokenId ctx2.self]) := by
  obtain ⟨hid, hid', _⟩ := (Spec.Reach.wf hr).ask ha
  obtain ⟨a', ha', rfl, rfl⟩ := did_rmAsk h1
  cases Option.some.inj (ha.symm.trans ha')
  have hnew : Ask.new p a.creator a.collection a.tokenId d = { a with details := d } := by
    unfold Ask.new; rw [← hid', ← hid]
  have hask : askId p a.collection a.tokenId = a.id := by rw [← hid', hid]
  have e2 := did_setAsk h2
  rw [hnew, hask] at e2
  obtain ⟨a', ha', e3⟩ := did_updAsk h3
  cases Option.some.inj (ha.symm.trans ha')
  rcases e2 with ⟨n2, rfl, rfl⟩ | ⟨mb, n2, rfl, x, rfl⟩ <;> rcases e3 with ⟨n3, rfl, rfl⟩ | ⟨mb3, n3, rfl, x3, rfl⟩
  · refine ⟨?_, .inr ⟨rfl, rfl⟩⟩
    simp only [AMap.insert_erase]
  · exact nomatch n2.symm.trans n3
  · exact nomatch n2.symm.trans n3
  · cases Option.some.inj (n2.symm.trans n3)
    refine ⟨?_, .inl ?_⟩
    · cases mb with
      | bid b => simp only [afterSale, removeMatching, AMap.erase_erase]
      | cbid b => simp only [afterSale, removeMatching, AMap.erase_erase]
    · rw [x.same hq rfl rfl x3]

/-- Bids: the rest of the state is the same, and the bid has the same terms; the trade, if there is one, is the same, and it costs the bidder
as much. -/
theorem C156_bid (hinj : HashInj p) {ctx1 ctx2 ctx3 : Ctx} {sender : Addr} {f1 f2 f3 : List Coin} {id : Bytes} {d : Details} {b : Bid}
    {s s1 s2 s3 : State} {m1 m2 m3 : List Msg} (hr : Reach p me NoWrap s) (hg : NoWrap s) (hb : s.bids.get? id = some b)
    (hq : SameRoyalties ctx2.q ctx3.q) (h1 : execute p ctx1 sender f1 (.removeBid id) s = .ok (s1, m1))
    (h2 : execute p ctx2 sender f2 (.setBid b.collection b.tokenId d) s1 = .ok (s2, m2))
    (h3 : execute p ctx3 sender f3 (.updateBid id d) s = .ok (s3, m3)) :
    s2.asks = s3.asks ∧ s2.cbids = s3.cbids ∧ s2.config = s3.config ∧ (∃ i, SameBut SameBid i id s2.bids s3.bids) ∧
      SameButChange sender (fun d => amountOf d f3 + paidOut d m1) (fun d => amountOf d f2) m2 m3 := by
  obtain ⟨hid, _⟩ := (Spec.Reach.wf hr).bid hb
  have hfresh := fresh_bid (Spec.Reach.nonce hr) hinj hg sender b.collection b.tokenId d ctx2.height
  obtain ⟨b', hb', rfl, rfl, rfl⟩ := did_rmBid h1
  cases Option.some.inj (hb.symm.trans hb')
  obtain ⟨b2, left, hdef, e2⟩ := did_setBid h2
  obtain ⟨b', left3, hb', e3⟩ := did_updBid h3
  cases Option.some.inj (hb.symm.trans hb')
  change s.bids.get? (Bid.new p b.creator b.collection b.tokenId d ctx2.height (nextNonce s)).id = none at hfresh
  have hsame : SameBid b2 { b with details := d } := by rw [hdef]; exact ⟨rfl, rfl, rfl, rfl⟩
  have hmatch : b2.matchWithAsk p { s with bids := s.bids.erase b.id } = ({ b with details := d } : Bid).matchWithAsk p s := by
    rw [hdef]; rfl
  have hdet : b2.details = d := by rw [hdef]; rfl
  have hrec : b2.assetRecipient = ({ b with details := d } : Bid).assetRecipient := by rw [hdef]; rfl
  have hpaid : ∀ e, paidOut e [.send b.creator [b.details.price]] = b.details.price.inDenom e := by
    intro e; simp only [paidOut, amountOf, Nat.add_zero]
  rw [hmatch] at e2
  rcases e2 with ⟨n2, g2, rfl, rfl, c2⟩ | ⟨a, n2, rfl, c2, x, rfl⟩ <;> rcases e3 with ⟨n3, rfl, rfl, c3⟩ | ⟨a3, n3, rfl, c3, x3, rfl⟩
  · refine ⟨rfl, rfl, rfl, ⟨b2.id, ?_⟩, sameButChange fun e => ?_⟩
    · rw [← hid]; exact sameBut_put hsame g2
    · have := c2 e; have := c3 e; have := hpaid e; omega
  · exact nomatch n2.symm.trans n3
  · exact nomatch n2.symm.trans n3
  · cases Option.some.inj (n2.symm.trans n3)
    rw [SaleParts.same (mb := .bid b2) (mb' := .bid { b with details := d }) hq hdet hrec x x3]
    refine ⟨rfl, rfl, rfl, ⟨b2.id, ?_⟩, sameButChange fun e => ?_⟩
    · rw [← hid]; exact sameBut_gone (by rw [hdef]; exact hfresh)
    · have := c2 e; have := c3 e; have := hpaid e; omega

/-- Collection bids: likewise. -/
theorem C156_cbid (hinj : HashInj p) {ctx1 ctx2 ctx3 : Ctx} {sender : Addr} {f1 f2 f3 : List Coin} {id : Bytes} {d : Details} {b : CBid}
    {s s1 s2 s3 : State} {m1 m2 m3 : List Msg} (hr : Reach p me NoWrap s) (hg : NoWrap s) (hb : s.cbids.get? id = some b)
    (hq : SameRoyalties ctx2.q ctx3.q) (h1 : execute p ctx1 sender f1 (.removeCollectionBid id) s = .ok (s1, m1))
    (h2 : execute p ctx2 sender f2 (.setCollectionBid b.collection d) s1 = .ok (s2, m2))
    (h3 : execute p ctx3 sender f3 (.updateCollectionBid id d) s = .ok (s3, m3)) :
    s2.asks = s3.asks ∧ s2.bids = s3.bids ∧ s2.config = s3.config ∧ (∃ i, SameBut SameCBid i id s2.cbids s3.cbids) ∧
      SameButChange sender (fun d => amountOf d f3 + paidOut d m1) (fun d => amountOf d f2) m2 m3 := by
  obtain ⟨hid, _⟩ := (Spec.Reach.wf hr).cbid hb
  have hfresh := fresh_cbid (Spec.Reach.nonce hr) hinj hg sender b.collection d ctx2.height
  obtain ⟨b', hb', rfl, rfl, rfl⟩ := did_rmCBid h1
  cases Option.some.inj (hb.symm.trans hb')
  obtain ⟨b2, left, hdef, e2⟩ := did_setCBid h2
  obtain ⟨b', left3, hb', e3⟩ := did_updCBid h3
  cases Option.some.inj (hb.symm.trans hb')
  change s.cbids.get? (CBid.new p b.creator b.collection d ctx2.height (nextNonce s)).id = none at hfresh
  have hsame : SameCBid b2 { b with details := d } := by rw [hdef]; exact ⟨rfl, rfl, rfl⟩
  have hmatch : b2.matchWithAsk p { s with cbids := s.cbids.erase b.id } = ({ b with details := d } : CBid).matchWithAsk p s := by
    rw [hdef]; rfl
  have hdet : b2.details = d := by rw [hdef]; rfl
  have hrec : b2.assetRecipient = ({ b with details := d } : CBid).assetRecipient := by rw [hdef]; rfl
  have hpaid : ∀ e, paidOut e [.send b.creator [b.details.price]] = b.details.price.inDenom e := by
    intro e; simp only [paidOut, amountOf, Nat.add_zero]
  rw [hmatch] at e2
  rcases e2 with ⟨n2, g2, rfl, rfl, c2⟩ | ⟨a, n2, rfl, c2, x, rfl⟩ <;> rcases e3 with ⟨n3, rfl, rfl, c3⟩ | ⟨a3, n3, rfl, c3, x3, rfl⟩
  · refine ⟨rfl, rfl, rfl, ⟨b2.id, ?_⟩, sameButChange fun e => ?_⟩
    · rw [← hid]; exact sameBut_put hsame g2
    · have := c2 e; have := c3 e; have := hpaid e; omega
  · exact nomatch (Except.ok.inj (n2.symm.trans n3))
  · exact nomatch (Except.ok.inj (n2.symm.trans n3))
  · cases Option.some.inj (Except.ok.inj (n2.symm.trans n3))
    rw [SaleParts.same (mb := .cbid b2) (mb' := .cbid { b with details := d }) hq hdet hrec x x3]
    refine ⟨rfl, rfl, rfl, ⟨b2.id, ?_⟩, sameButChange fun e => ?_⟩
    · rw [← hid]; exact sameBut_gone (by rw [hdef]; exact hfresh)
    · have := c2 e; have := c3 e; have := hpaid e; omega

open Sample in
/-- bob raises the bid of 80 to the 100 alice asks, in place or by bidding anew; alice goes below the bids, in place or by listing
anew; carol raises a bid. All of these calls succeed. -/
example : s4.bids.get? bid ≠ none ∧ s4.asks.get? aid ≠ none ∧ s4.cbids.get? cid ≠ none ∧
    (let s := (run (ctx (some self)) bob [] (.removeBid bid) s4).1
     ok (ctx (some self)) bob [] (.removeBid bid) s4 = true ∧
     ok (ctx (some self)) bob [⟨ust, 105⟩] (.setBid coll tok (det' 100 carol)) s = true ∧
     ok (ctx (some self)) bob [⟨ust, 25⟩] (.updateBid bid (det' 100 carol)) s4 = true ∧
     (run (ctx (some self)) bob [⟨ust, 105⟩] (.setBid coll tok (det' 100 carol)) s).2 =
       (run (ctx (some self)) bob [⟨ust, 25⟩] (.updateBid bid (det' 100 carol)) s4).2) ∧
    (let s := (run (ctx (some self)) alice [] (.removeAsk aid) s4).1
     ok (ctx (some self)) alice [] (.removeAsk aid) s4 = true ∧
     ok (ctx (some alice)) alice [⟨ust, 5⟩] (.setAsk coll tok (det 75)) s = true ∧
     ok (ctx (some self)) alice [] (.updateAsk aid (det 75)) s4 = true) ∧
    (let s := (run (ctx (some self)) carol [] (.removeCollectionBid cid) s4).1
     ok (ctx (some self)) carol [] (.removeCollectionBid cid) s4 = true ∧
     ok (ctx (some self)) carol [⟨ust, 95⟩] (.setCollectionBid coll (det 95)) s = true ∧
     ok (ctx (some self)) carol [⟨ust, 9⟩] (.updateCollectionBid cid (det 95)) s4 = true) := by
  decide +kernel

end Verif.V2

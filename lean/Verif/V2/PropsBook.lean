/-
Marketplace v2: what is recorded (C74, C75, C76).
-/
import Verif.V2.PropsOrders

namespace Verif.V2
open Verif Spec

section
variable {p : Params} {me : Addr} {G : State → Prop}

/-! ### C74 accepted denom -/

/-- The call places or changes an order on this collection at this price. -/
inductive Spec.Prices (s : State) : Exec → Addr → Coin → Prop where
  | setAsk (c t : Bytes) (d : Details) : Prices s (.setAsk c t d) c d.price
  | sellNft (c t : Bytes) (d : Details) : Prices s (.sellNft c t d) c d.price
  | updateAsk (id : Bytes) (d : Details) (a : Ask) (ha : s.asks.get? id = some a) :
      Prices s (.updateAsk id d) a.collection d.price
  | setBid (c t : Bytes) (d : Details) : Prices s (.setBid c t d) c d.price
  | buySpecific (c t : Bytes) (d : Details) : Prices s (.buySpecificNft c t d) c d.price
  | updateBid (id : Bytes) (d : Details) (b : Bid) (hb : s.bids.get? id = some b) :
      Prices s (.updateBid id d) b.collection d.price
  | setCBid (c : Bytes) (d : Details) : Prices s (.setCollectionBid c d) c d.price
  | buyColl (c : Bytes) (d : Details) : Prices s (.buyCollectionNft c d) c d.price
  | updateCBid (id : Bytes) (d : Details) (b : CBid) (hb : s.cbids.get? id = some b) :
      Prices s (.updateCollectionBid id d) b.collection d.price

/-- The denom the collection trades in: its own, if the admin has set one, else the default. -/
def Spec.denomOf (s : State) (c : Addr) : Denom :=
  match s.collectionDenoms.get? c with
  | some d => d
  | none => s.config.defaultDenom

theorem priceOk_denom {s : State} {c : Addr} {x : Coin} (h : PriceOk s c x) : x.denom = denomOf s c ∧ 0 < x.amount := by
  refine ⟨?_, h.1⟩
  rw [← h.2]
  unfold denomOf
  cases s.collectionDenoms.get? c <;> rfl

/-- An order is placed or changed only with a positive price in the collection's denom. -/
theorem C74_denom {ctx : Ctx} {sender : Addr} {funds : List Coin} {m : Exec} {s s' : State} {msgs : List Msg}
    {c : Addr} {price : Coin} (hm : Prices s m c price)
    (hx : execute p ctx sender funds m s = .ok (s', msgs)) : price.denom = denomOf s c ∧ 0 < price.amount := by
  cases execute_eff hx with
  | restAsk coll tok d pay hv hd hown htr hpr => cases hm; exact priceOk_denom hpr
  | sellAsk m coll tok d pay mb hm' hv hd hown htr hpr => rcases hm' with rfl | rfl <;> cases hm <;> exact priceOk_denom hpr
  | updAsk id d a hf hd ha hcr hpr =>
    cases hm with
    | updateAsk _ _ a' ha' => rw [ha] at ha'; cases ha'; exact priceOk_denom hpr
  | updSell id d a mb hf hd ha hcr hpr =>
    cases hm with
    | updateAsk _ _ a' ha' => rw [ha] at ha'; cases ha'; exact priceOk_denom hpr
  | restBid coll tok d fn left hv hd htr hpr => cases hm; exact priceOk_denom hpr
  | buyBid m coll tok d fn left a hm' hv hd htr hpr => rcases hm' with rfl | rfl <;> cases hm <;> exact priceOk_denom hpr
  | updBid id d b fn fa left hd hb hcr hpr =>
    cases hm with
    | updateBid _ _ b' hb' => rw [hb] at hb'; cases hb'; exact priceOk_denom hpr
  | updBuy id d b a fn fa left hd hb hcr hpr =>
    cases hm with
    | updateBid _ _ b' hb' => rw [hb] at hb'; cases hb'; exact priceOk_denom hpr
  | restCBid coll d fn left hv hd htr hpr => cases hm; exact priceOk_denom hpr
  | buyCBid m coll d fn left a hm' hv hd htr hpr => rcases hm' with rfl | rfl <;> cases hm <;> exact priceOk_denom hpr
  | updCBid id d b fn fa left hd hb hcr hpr =>
    cases hm with
    | updateCBid _ _ b' hb' => rw [hb] at hb'; cases hb'; exact priceOk_denom hpr
  | updCBuy id d b a fn fa left hd hb hcr hpr =>
    cases hm with
    | updateCBid _ _ b' hb' => rw [hb] at hb'; cases hb'; exact priceOk_denom hpr
  | _ => cases hm

namespace Sample
/-- the admin makes the collection trade in another denom -/
def vst : Denom := [118]
def s4v : State := (run (ctx (some self)) admin [] (.updateCollectionDenom coll vst) s4).1
theorem r4v : Reach P self NoWrap s4v := next r4 (by decide +kernel) rfl (by decide) (by decide +kernel)
theorem vbid_ok : execute P (ctx (some self)) bob [⟨vst, 30⟩] (.setBid coll tok ⟨⟨vst, 30⟩, none, none⟩) s4v =
    .ok (run (ctx (some self)) bob [⟨vst, 30⟩] (.setBid coll tok ⟨⟨vst, 30⟩, none, none⟩) s4v) := run_eq (by decide +kernel)
example := C74_denom (.setBid coll tok ⟨⟨vst, 30⟩, none, none⟩) vbid_ok
example : ¬ ok (ctx (some self)) bob [⟨ust, 30⟩] (.setBid coll tok (det 30)) s4v := by decide +kernel
end Sample

/-! ### C75 the order recorded is the order requested -/

/-- The only difference between the two maps is that `id` now holds `v`. -/
structure Spec.Put {V : Type} (m m' : AMap Bytes V) (id : Bytes) (v : V) : Prop where
  here : m'.get? id = some v
  others : ∀ i, i ≠ id → m'.get? i = m.get? i

theorem put_insert {V : Type} (m : AMap Bytes V) (id : Bytes) (v : V) : Put m (m.insert id v) id v :=
  ⟨AMap.get?_insert_self m id v, fun i hi => by rw [AMap.get?_insert, if_neg (Ne.symm hi)]⟩

/-- What a call that places or changes an order leaves in the book if it does not trade: exactly the order asked
for, in the sender's name; everything else in the state (but the bid counter) is as before. -/
inductive Spec.Records (s s' : State) (sender : Addr) : Exec → Prop where
  | setAsk (c t : Bytes) (d : Details) (id : Bytes) (a : Ask) (hnew : s.asks.get? id = none)
      (hput : Put s.asks s'.asks id a) (h : a.creator = sender ∧ a.collection = c ∧ a.tokenId = t ∧ a.details = d)
      (hrest : s' = { s with asks := s'.asks }) : Records s s' sender (.setAsk c t d)
  | updateAsk (id : Bytes) (d : Details) (a : Ask) (hold : s.asks.get? id = some a) (hc : a.creator = sender)
      (hput : Put s.asks s'.asks id { a with details := d })
      (hrest : s' = { s with asks := s'.asks }) : Records s s' sender (.updateAsk id d)
  | setBid (c t : Bytes) (d : Details) (id : Bytes) (b : Bid) (hnew : s.bids.get? id = none)
      (hput : Put s.bids s'.bids id b) (h : b.creator = sender ∧ b.collection = c ∧ b.tokenId = t ∧ b.details = d)
      (hrest : s' = { s with bids := s'.bids, nonce := s'.nonce }) : Records s s' sender (.setBid c t d)
  | updateBid (id : Bytes) (d : Details) (b : Bid) (hold : s.bids.get? id = some b) (hc : b.creator = sender)
      (hput : Put s.bids s'.bids id { b with details := d })
      (hrest : s' = { s with bids := s'.bids }) : Records s s' sender (.updateBid id d)
  | setCBid (c : Bytes) (d : Details) (id : Bytes) (b : CBid) (hnew : s.cbids.get? id = none)
      (hput : Put s.cbids s'.cbids id b) (h : b.creator = sender ∧ b.collection = c ∧ b.details = d)
      (hrest : s' = { s with cbids := s'.cbids, nonce := s'.nonce }) : Records s s' sender (.setCollectionBid c d)
  | updateCBid (id : Bytes) (d : Details) (b : CBid) (hold : s.cbids.get? id = some b) (hc : b.creator = sender)
      (hput : Put s.cbids s'.cbids id { b with details := d })
      (hrest : s' = { s with cbids := s'.cbids }) : Records s s' sender (.updateCollectionBid id d)

/-- The call places or changes an order. -/
def Spec.Places : Exec → Prop
  | .setAsk _ _ _ | .updateAsk _ _ | .setBid _ _ _ | .updateBid _ _ | .setCollectionBid _ _
  | .updateCollectionBid _ _ => True
  | _ => False

/-- A successful call that places or changes an order either trades or records exactly that order. -/
theorem C75_recorded {ctx : Ctx} {sender : Addr} {funds : List Coin} {m : Exec} {s s' : State} {msgs : List Msg}
    (hr : Reach p me G s) (hm : Places m) (hx : execute p ctx sender funds m s = .ok (s', msgs)) :
    Trades m s' me msgs ∨ Records s s' sender m := by
  have hw := hr.wf
  have nin : ∀ {a : Ask} {mb : MatchingBid} {abb : Bool} (x : SaleParts p ctx a s.config mb abb),
      Msg.nft a.collection a.tokenId mb.recipient ∈ x.msgs := by
    intro a mb abb x; simp [SaleParts.msgs, transferNft]
  have sub : ∀ (y : Msg) (l : List Coin) (ms : List Msg), y ∈ ms → y ∈ refund sender l ms := by
    intro y l ms h; unfold refund; split
    · exact h
    · exact List.mem_append_left _ h
  cases execute_eff hx with
  | restAsk coll tok d pay hv hd hown htr hpr hf hpos hfee hmn hnew =>
    exact Or.inr (.setAsk _ _ _ _ _ hnew (put_insert _ _ _) ⟨rfl, rfl, rfl, rfl⟩ rfl)
  | sellAsk m coll tok d pay mb hm' hv hd hown htr hpr hf hpos hfee hmb x =>
    rcases hm' with rfl | rfl
    · refine Or.inl ⟨_, _, _, List.mem_cons_of_mem _ (nin x), (by intro id h; cases h), ?_⟩
      rintro ⟨-, id, a, d', -, h1, h2, h3, -⟩
      have h4 := (hw.ask ((afterSale_shrink s (Ask.new p sender coll tok d) mb).ask h1)).2.1
      rw [h2, h3] at h4
      have h5 := afterSale_ask (s := s) (a := Ask.new p sender coll tok d) (mb := mb)
      rw [h4] at h1
      exact absurd (h5.symm.trans h1) (by simp)
    · cases hm
  | updAsk id d a hf hd ha hcr hpr hmn =>
    have h1 := (hw.ask ha).1
    subst h1
    exact Or.inr (.updateAsk _ _ a ha hcr.symm (put_insert _ _ _) rfl)
  | updSell id d a mb hf hd ha hcr hpr hmb x =>
    exact Or.inl ⟨_, _, _, nin x, (by intro id h; cases h), by rintro ⟨-, _, _, _, h, -⟩; cases h⟩
  | restBid coll tok d fn left hv hd htr hpr hn hmn hl hnew =>
    exact Or.inr (.setBid _ _ _ _ _ hnew (put_insert _ _ _) ⟨rfl, rfl, rfl, rfl⟩ rfl)
  | buyBid m coll tok d fn left a hm' hv hd htr hpr hn ha hl x =>
    rcases hm' with rfl | rfl
    · exact Or.inl ⟨_, _, _, sub _ _ _ (nin x), (by intro id h; cases h), by rintro ⟨-, _, _, _, h, -⟩; cases h⟩
    · cases hm
  | updBid id d b fn fa left hd hb hcr hpr hn hadd hmn hl =>
    have h1 := (hw.bid hb).1
    subst h1
    exact Or.inr (.updateBid _ _ b hb hcr.symm (put_insert _ _ _) rfl)
  | updBuy id d b a fn fa left hd hb hcr hpr hn hadd ha hl x =>
    exact Or.inl ⟨_, _, _, sub _ _ _ (nin x), (by intro id h; cases h), by rintro ⟨-, _, _, _, h, -⟩; cases h⟩
  | restCBid coll d fn left hv hd htr hpr hn hmn hl hnew =>
    exact Or.inr (.setCBid _ _ _ _ hnew (put_insert _ _ _) ⟨rfl, rfl, rfl⟩ rfl)
  | buyCBid m coll d fn left a hm' hv hd htr hpr hn ha hl x =>
    rcases hm' with rfl | rfl
    · exact Or.inl ⟨_, _, _, sub _ _ _ (nin x), (by intro id h; cases h), by rintro ⟨-, _, _, _, h, -⟩; cases h⟩
    · cases hm
  | updCBid id d b fn fa left hd hb hcr hpr hn hadd hmn hl =>
    have h1 := (hw.cbid hb).1
    subst h1
    exact Or.inr (.updateCBid _ _ b hb hcr.symm (put_insert _ _ _) rfl)
  | updCBuy id d b a fn fa left hd hb hcr hpr hn hadd ha hl x =>
    exact Or.inl ⟨_, _, _, sub _ _ _ (nin x), (by intro id h; cases h), by rintro ⟨-, _, _, _, h, -⟩; cases h⟩
  | _ => cases hm

namespace Sample
/-- both outcomes occur: bob's 30 rests, 100 trades -/
example := C75_recorded r4v (by trivial) vbid_ok
example : (run (ctx (some self)) bob [⟨vst, 30⟩] (.setBid coll tok ⟨⟨vst, 30⟩, none, none⟩) s4v).1.bids.vals.length = 2 := by
  decide +kernel
example : (run (ctx (some self)) bob [⟨ust, 100⟩] (.setBid coll tok (det 100)) s4).1.bids.vals.length = 1 := by
  decide +kernel
end Sample

/-! ### C76 administration -/

/-- The fee rates are acceptable. -/
def Spec.RatesOk (c : Config) : Prop := c.protocolFeeBps < 10000 ∧ c.makerRewardBps + c.takerRewardBps < 10000

theorem admin_ok {ctx : Ctx} {sender : Addr} {u : Unit} : onlyContractAdmin ctx sender = .ok u ↔ ctx.q.admin = some (some sender) := by
  unfold onlyContractAdmin
  split
  · rename_i h; simp [h]
  · rename_i h; simp [h]
  · rename_i a h
    rw [ensure_ok, h]
    constructor
    · rintro rfl; rfl
    · intro h; cases h; rfl

/-- UpdateConfig succeeds exactly for the admin and an acceptable configuration, which is then in force; nothing else
changes and no message is sent. -/
theorem C76_update_config (ctx : Ctx) (sender : Addr) (funds : List Coin) (c : Config) (s : State) :
    (ctx.q.admin = some (some sender) ∧ p.valid c.feeManager = true ∧ p.valid c.royaltyRegistry = true ∧ RatesOk c →
      execute p ctx sender funds (.updateConfig c) s = .ok ({ s with config := c }, [])) ∧
    (¬ (ctx.q.admin = some (some sender) ∧ p.valid c.feeManager = true ∧ p.valid c.royaltyRegistry = true ∧ RatesOk c) →
      ∃ e, execute p ctx sender funds (.updateConfig c) s = .error e) := by
  have key : ∀ r, execute p ctx sender funds (.updateConfig c) s = .ok r ↔
      (ctx.q.admin = some (some sender) ∧ p.valid c.feeManager = true ∧ p.valid c.royaltyRegistry = true ∧ RatesOk c) ∧
      r = ({ s with config := c }, []) := by
    intro r
    simp only [execute, executeUpdateConfig, bind_ok, configStr_ok, admin_ok, configValidate_ok, Except.ok.injEq]
    unfold RatesOk
    constructor
    · rintro ⟨_, ⟨⟨h1, h2⟩, rfl⟩, _, h3, _, h4, rfl⟩; exact ⟨⟨h3, h1, h2, h4⟩, rfl⟩
    · rintro ⟨⟨h3, h1, h2, h4⟩, rfl⟩; exact ⟨c, ⟨⟨h1, h2⟩, rfl⟩, (), h3, (), h4, rfl⟩
  constructor
  · intro h; exact (key _).2 ⟨h, rfl⟩
  · intro h
    cases hr : execute p ctx sender funds (.updateConfig c) s with
    | ok r => exact absurd ((key r).1 hr).1 h
    | error e => exact ⟨e, rfl⟩

/-- UpdateCollectionDenom succeeds exactly for the admin and a valid address; afterwards the collection trades in the
given denom, other collections are not affected and nothing else changes. -/
theorem C76_update_denom (ctx : Ctx) (sender : Addr) (funds : List Coin) (coll : Bytes) (den : Denom) (s : State) :
    (ctx.q.admin = some (some sender) ∧ p.valid coll = true → ∃ s',
      execute p ctx sender funds (.updateCollectionDenom coll den) s = .ok (s', []) ∧ denomOf s' coll = den ∧
      (∀ c, c ≠ coll → denomOf s' c = denomOf s c) ∧ s' = { s with collectionDenoms := s'.collectionDenoms }) ∧
    (¬ (ctx.q.admin = some (some sender) ∧ p.valid coll = true) →
      ∃ e, execute p ctx sender funds (.updateCollectionDenom coll den) s = .error e) := by
  have key : ∀ r, execute p ctx sender funds (.updateCollectionDenom coll den) s = .ok r ↔
      (ctx.q.admin = some (some sender) ∧ p.valid coll = true) ∧
      r = ({ s with collectionDenoms := s.collectionDenoms.insert coll den }, []) := by
    intro r
    simp only [execute, executeUpdateCollectionDenom, bind_ok, addrValidate_ok, admin_ok, Except.ok.injEq]
    constructor
    · rintro ⟨_, ⟨h1, rfl⟩, _, h3, rfl⟩; exact ⟨⟨h3, h1⟩, rfl⟩
    · rintro ⟨⟨h3, h1⟩, rfl⟩; exact ⟨coll, ⟨h1, rfl⟩, (), h3, rfl⟩
  constructor
  · intro h
    refine ⟨_, (key _).2 ⟨h, rfl⟩, ?_, ?_, rfl⟩
    · unfold denomOf; simp
    · intro c hc
      unfold denomOf
      simp only
      rw [AMap.get?_insert, if_neg (Ne.symm hc)]
  · intro h
    cases hr : execute p ctx sender funds (.updateCollectionDenom coll den) s with
    | ok r => exact absurd ((key r).1 hr).1 h
    | error e => exact ⟨e, rfl⟩

/-- SetListingFee and RemoveListingFee succeed exactly for the admin; they set (remove) the fee of that denom, leave
the fees of the other denoms alone and change nothing else. -/
theorem C76_listing_fee (ctx : Ctx) (sender : Addr) (funds : List Coin) (fee : Coin) (den : Denom) (s : State) :
    (ctx.q.admin = some (some sender) →
      (∃ s', execute p ctx sender funds (.setListingFee fee) s = .ok (s', []) ∧
        s'.listingFees.get? fee.denom = some fee.amount ∧
        (∀ d, d ≠ fee.denom → s'.listingFees.get? d = s.listingFees.get? d) ∧ s' = { s with listingFees := s'.listingFees }) ∧
      (∃ s', execute p ctx sender funds (.removeListingFee den) s = .ok (s', []) ∧
        s'.listingFees.get? den = none ∧
        (∀ d, d ≠ den → s'.listingFees.get? d = s.listingFees.get? d) ∧ s' = { s with listingFees := s'.listingFees })) ∧
    (ctx.q.admin ≠ some (some sender) →
      (∃ e, execute p ctx sender funds (.setListingFee fee) s = .error e) ∧
      ∃ e, execute p ctx sender funds (.removeListingFee den) s = .error e) := by
  have k1 : ∀ r, execute p ctx sender funds (.setListingFee fee) s = .ok r ↔
      ctx.q.admin = some (some sender) ∧ r = ({ s with listingFees := s.listingFees.insert fee.denom fee.amount }, []) := by
    intro r
    simp only [execute, executeSetListingFee, bind_ok, admin_ok, Except.ok.injEq]
    constructor
    · rintro ⟨_, h3, rfl⟩; exact ⟨h3, rfl⟩
    · rintro ⟨h3, rfl⟩; exact ⟨(), h3, rfl⟩
  have k2 : ∀ r, execute p ctx sender funds (.removeListingFee den) s = .ok r ↔
      ctx.q.admin = some (some sender) ∧ r = ({ s with listingFees := s.listingFees.erase den }, []) := by
    intro r
    simp only [execute, executeRemoveListingFee, bind_ok, admin_ok, Except.ok.injEq]
    constructor
    · rintro ⟨_, h3, rfl⟩; exact ⟨h3, rfl⟩
    · rintro ⟨h3, rfl⟩; exact ⟨(), h3, rfl⟩
  constructor
  · intro h
    refine ⟨⟨_, (k1 _).2 ⟨h, rfl⟩, AMap.get?_insert_self _ _ _, ?_, rfl⟩, ⟨_, (k2 _).2 ⟨h, rfl⟩, AMap.get?_erase_self _ _, ?_, rfl⟩⟩
    · intro d hd
      show (s.listingFees.insert fee.denom fee.amount).get? d = _
      rw [AMap.get?_insert, if_neg (Ne.symm hd)]
    · intro d hd
      show (s.listingFees.erase den).get? d = _
      rw [AMap.get?_erase, if_neg (Ne.symm hd)]
  · intro h
    constructor
    · cases hr : execute p ctx sender funds (.setListingFee fee) s with
      | ok r => exact absurd ((k1 r).1 hr).1 h
      | error e => exact ⟨e, rfl⟩
    · cases hr : execute p ctx sender funds (.removeListingFee den) s with
      | ok r => exact absurd ((k2 r).1 hr).1 h
      | error e => exact ⟨e, rfl⟩

/-- Instantiation succeeds exactly for an acceptable configuration, which is then in force; there are no orders, no
listing fees and no collection denoms. -/
theorem C76_instantiate (c : Config) :
    (p.valid c.feeManager = true ∧ p.valid c.royaltyRegistry = true ∧ RatesOk c → ∃ s,
      instantiate p c = .ok s ∧ s.config = c ∧ (∀ id, s.asks.get? id = none) ∧ (∀ id, s.bids.get? id = none) ∧
      (∀ id, s.cbids.get? id = none) ∧ (∀ d, s.listingFees.get? d = none) ∧ ∀ a, denomOf s a = c.defaultDenom) ∧
    (¬ (p.valid c.feeManager = true ∧ p.valid c.royaltyRegistry = true ∧ RatesOk c) →
      ∃ e, instantiate p c = .error e) := by
  have key : ∀ r, instantiate p c = .ok r ↔
      (p.valid c.feeManager = true ∧ p.valid c.royaltyRegistry = true ∧ RatesOk c) ∧
      r = { config := c, collectionDenoms := .empty, listingFees := .empty, nonce := 0,
            asks := .empty, bids := .empty, cbids := .empty } := by
    intro r
    simp only [instantiate, bind_ok, configStr_ok, configValidate_ok, Except.ok.injEq]
    unfold RatesOk
    constructor
    · rintro ⟨_, ⟨⟨h1, h2⟩, rfl⟩, _, h4, rfl⟩; exact ⟨⟨h1, h2, h4⟩, rfl⟩
    · rintro ⟨⟨h1, h2, h4⟩, rfl⟩; exact ⟨c, ⟨⟨h1, h2⟩, rfl⟩, (), h4, rfl⟩
  constructor
  · intro h
    exact ⟨_, (key _).2 ⟨h, rfl⟩, rfl, fun _ => rfl, fun _ => rfl, fun _ => rfl, fun _ => rfl, fun _ => rfl⟩
  · intro h
    cases hr : instantiate p c with
    | ok r => exact absurd ((key r).1 hr).1 h
    | error e => exact ⟨e, rfl⟩

namespace Sample
example := (C76_update_config (p := P) (ctx none) admin [] { cfg with protocolFeeBps := 300 } s4).1
  ⟨rfl, by decide, by decide, by decide, by decide⟩
example := (C76_update_config (p := P) (ctx none) admin [] { cfg with protocolFeeBps := 10000 } s4).2
  (by rintro ⟨-, -, -, h, -⟩; revert h; decide)
example := (C76_update_denom (p := P) (ctx none) admin [] coll vst s4).1 ⟨rfl, by decide⟩
example := (C76_listing_fee (p := P) (ctx none) admin [] ⟨ust, 5⟩ vst s4).1 rfl
example := (C76_listing_fee (p := P) (ctx none) bob [] ⟨ust, 5⟩ vst s4).2 (by decide)
example := (C76_instantiate (p := P) cfg).1 ⟨by decide, by decide, by decide, by decide⟩
end Sample

end
end Verif.V2

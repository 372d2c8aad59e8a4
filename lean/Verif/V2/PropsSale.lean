/-
Marketplace v2: properties of sales (C01, C02, C12, C13, C14, C15, C19, C20, C21, C22, C23, C25, C26).
-/
import Verif.V2.Sample
import Verif.V2.FeeLemmas
import Verif.Base.Stuck

namespace Verif.V2
open Verif Spec

section
variable {p : Params} {me : Addr} {G : State → Prop}

/-! ### C01 exact split -/

/-- `feeDue` is the share of the price rounded up: the least `n` with `price * share ≤ n * 10^18`. -/
theorem C01_feeDue_is_ceiling (price share : Nat) :
    price * share ≤ feeDue price share * 10^18 ∧ ∀ n, price * share ≤ n * 10^18 → feeDue price share ≤ n := by
  rw [feeDue_eq]
  exact ⟨ceilDiv_mul_ge _ _ ONE_pos, fun n h => (ceilDiv_le_iff ONE_pos).mpr h⟩

/-- The parts of a split add up to the price. -/
theorem C01_split_total {price : Nat} {seller : Addr} {fees pays : List (Addr × Nat)}
    (h : split price seller fees = some pays) : (pays.map Prod.snd).sum = price := by
  unfold split at h
  simp only at h
  generalize (fees.filter (fun f => decide (f.2 ≠ 0))).map (fun f => (f.1, feeDue price f.2)) = dues at h
  split at h
  case isTrue => cases h
  case isFalse hlt =>
    cases h
    rw [List.map_append, List.sum_append]
    generalize (dues.map Prod.snd).sum = n at hlt ⊢
    by_cases e : n = price
    · rw [if_pos e]; simp; exact e
    · rw [if_neg e]; simp; omega

/-- The sale processor pays exactly the specified split, everything in the sale denom, and the payments add
up to the sale price. -/
theorem C01_processor {sale : Coin} {seller : Addr} {fees : List Fee} {ps : List Payment}
    (h : buildPayments sale seller fees = .ok ps) :
    split sale.amount seller (fees.map (fun f => (f.recipient, f.share))) =
      some (ps.map (fun x => (x.recipient, x.funds.amount))) ∧
    (∀ x ∈ ps, x.funds.denom = sale.denom) ∧ (ps.map (fun x => x.funds.amount)).sum = sale.amount := by
  obtain ⟨h1, h2⟩ := buildPayments_split h
  refine ⟨h1, h2, ?_⟩
  have := C01_split_total h1
  rw [List.map_map] at this
  exact this

/-- The sale is rejected exactly when the rounded fees exceed the price. -/
theorem C01_processor_rejects {sale : Coin} {seller : Addr} {fees : List Fee} (hs : sale.amount ≤ U128MAX) :
    (∃ e, buildPayments sale seller fees = .error e) ↔
    split sale.amount seller (fees.map (fun f => (f.recipient, f.share))) = none := by
  have ht := dues_sum sale.amount fees
  rw [feeTotal_active] at ht
  constructor
  · rintro ⟨e, he⟩
    unfold split
    simp only [ht]
    apply if_pos
    apply Nat.lt_of_not_le
    intro hle
    obtain ⟨ps, hps⟩ := buildPayments_succeeds (seller := seller) hs hle
    rw [hps] at he; cases he
  · intro h
    cases hb : buildPayments sale seller fees with
    | error e => exact ⟨e, rfl⟩
    | ok ps =>
      have := (buildPayments_split hb).1
      rw [h] at this; cases this

/-- In every call that trades, the payments made for the sale add up to exactly the price charged, and are the
specified split of it into fees and the seller's remainder. -/
theorem C01_sale {ctx : Ctx} {sender : Addr} {funds : List Coin} {m : Exec} {s s' : State} {msgs : List Msg}
    (hr : Reach p me G s) (hlim : 1 ≤ p.maxLimit) (hself : ctx.self = me)
    (hx : execute p ctx sender funds m s = .ok (s', msgs)) (ht : Trades m s' me msgs) :
    ∃ S B, SellBy s sender m S ∧ BuyBy s sender m B ∧
      ∃ x : Sale ctx.q funds s s' m msgs S B, (x.pays.map Prod.snd).sum = (priceOf m S B).amount := by
  obtain ⟨S, B, h⟩ := trade_main hr hlim hself hx ht
  obtain ⟨x⟩ := h.sale
  exact ⟨S, B, h.sell, h.buy, x, C01_split_total x.hpays⟩

/-! Concrete cases: 3 fees on a price of 101, and a price too small for its rounded fees. -/
example : buildPayments ⟨[1], 101⟩ [9] [⟨.protocol, [1], 2 * 10^16⟩, ⟨.maker, [2], 0⟩, ⟨.royalty, [3], 5 * 10^16⟩]
    = .ok [⟨.protocol, [1], ⟨[1], 3⟩⟩, ⟨.royalty, [3], ⟨[1], 6⟩⟩, ⟨.seller, [9], ⟨[1], 92⟩⟩] := by decide +kernel
example : buildPayments ⟨[1], 1⟩ [9] [⟨.protocol, [1], 2 * 10^16⟩, ⟨.royalty, [3], 5 * 10^16⟩] = .error .overflow := by
  decide +kernel

namespace Sample
theorem trades_of {m : Exec} {s' : State} {msgs : List Msg} {c t to : Bytes} (h : Msg.nft c t to ∈ msgs)
    (hto : to ≠ self) (hm : ∀ id, m ≠ .removeAsk id) : Trades m s' self msgs :=
  ⟨c, t, to, h, hm, fun hh => hto hh.1⟩

/-- bob buys alice's listing for 100 -/
theorem buy_ok : execute P (ctx (some self)) bob [⟨ust, 120⟩] (.acceptAsk aid (det 110)) s4 =
    .ok (run (ctx (some self)) bob [⟨ust, 120⟩] (.acceptAsk aid (det 110)) s4) := run_eq (by decide +kernel)
theorem buy_trades : Trades (.acceptAsk aid (det 110))
    (run (ctx (some self)) bob [⟨ust, 120⟩] (.acceptAsk aid (det 110)) s4).1 self
    (run (ctx (some self)) bob [⟨ust, 120⟩] (.acceptAsk aid (det 110)) s4).2 :=
  trades_of (c := coll) (t := tok) (to := bob) (by decide +kernel) (by decide) (by simp)
example : (run (ctx (some self)) bob [⟨ust, 120⟩] (.acceptAsk aid (det 110)) s4).2 =
    [.initRoyalty registry coll, .send feeMgr [⟨ust, 2⟩], .send artist [⟨ust, 5⟩], .send alice [⟨ust, 93⟩],
     .nft coll tok bob, .send bob [⟨ust, 20⟩]] := by decide +kernel
example := C01_sale r4 (by decide) rfl buy_ok buy_trades
end Sample

/-! ### C02 finder rewards -/

/-- The shares charged for protocol and finders add up to the protocol fee, whoever the finders are. -/
theorem C02_shares_total (c : Config) (hc : c.validate = .ok ()) (maker taker : Option Addr) :
    ((feeShares c maker taker).map Prod.snd).sum = c.protocolFeeBps * 10^14 :=
  feeShares_sum (configValidate_ok.mp hc).2 maker taker

/-- Every sale charges these shares. -/
theorem C02_sale {ctx : Ctx} {sender : Addr} {funds : List Coin} {m : Exec} {s s' : State} {msgs : List Msg}
    (hr : Reach p me G s) (hlim : 1 ≤ p.maxLimit) (hself : ctx.self = me)
    (hx : execute p ctx sender funds m s = .ok (s', msgs)) (ht : Trades m s' me msgs) :
    s.config.validate = .ok () ∧
    ∃ S B, SellBy s sender m S ∧ BuyBy s sender m B ∧ ∃ x : Sale ctx.q funds s s' m msgs S B,
      split (priceOf m S B).amount S.payTo
        (feeShares s.config (makerOf m S B) (takerOf m S B) ++ royaltyShare ctx.q s.config S.coll) = some x.pays := by
  obtain ⟨S, B, h⟩ := trade_main hr hlim hself hx ht
  obtain ⟨x⟩ := h.sale
  exact ⟨configValidate_ok.mpr (Spec.Reach.wf hr).cfg, S, B, h.sell, h.buy, x, x.hpays⟩

/-- For an accepted configuration and any combination of finders the fee computation never aborts. -/
theorem C02_never_aborts (c : Config) (hc : c.validate = .ok ()) (maker taker : Option Addr) (roy : Option Royalty) :
    ∃ pf fees, divideProtocolFees c maker.isSome taker.isSome = .ok pf ∧ saleFees c pf maker taker roy = .ok fees := by
  obtain ⟨h1, h2⟩ := configValidate_ok.mp hc
  have hd := divide_value h1 h2 maker.isSome taker.isSome
  generalize hpf : ProtocolFees.mk _ _ _ = pf at hd
  have e1 : maker = none → pf.makerReward = 0 := by
    intro h; rw [← hpf]; exact if_neg (by rw [h]; simp)
  have e2 : taker = none → pf.takerReward = 0 := by
    intro h; rw [← hpf]; exact if_neg (by rw [h]; simp)
  obtain ⟨fs, hfs⟩ := saleFees_value c pf maker taker roy e1 e2
  exact ⟨pf, fs, hd, hfs⟩

example : Sample.cfg.validate = .ok () := by decide +kernel
example : feeShares Sample.cfg (some [7,7,7]) (some [6,6,6]) =
    [([2,2,2], 10^16), ([7,7,7], 8 * 10^15), ([6,6,6], 2 * 10^15)] := by decide +kernel
example := C02_shares_total Sample.cfg (by decide +kernel) (some [7,7,7]) none
example := C02_never_aborts Sample.cfg (by decide +kernel) (some [7,7,7]) (some [6,6,6]) none
example := C02_sale Sample.r4 (by decide) rfl Sample.buy_ok Sample.buy_trades

/-! ### C12 best bid -/

/-- A seller is matched with the best bid for the very token, on that bid's price, which is at least the ask. -/
theorem C12_best_bid {ctx : Ctx} {sender : Addr} {funds : List Coin} {m : Exec} {s s' : State} {msgs : List Msg}
    (hr : Reach p me G s) (hlim : 1 ≤ p.maxLimit) (h1 : NoSlash p) (h2 : HashInj p) (h3 : PrefixFree p)
    (hself : ctx.self = me) (hm : AskCall m)
    (hx : execute p ctx sender funds m s = .ok (s', msgs)) (ht : Trades m s' me msgs) :
    ∃ S B, SellBy s sender m S ∧ BuyBy s sender m B ∧ Nonempty (Sale ctx.q funds s s' m msgs S B) ∧
      BestBid s S B ∧ SameToken S B ∧ priceOf m S B = B.limit ∧
      B.limit.denom = S.limit.denom ∧ S.limit.amount ≤ B.limit.amount := by
  obtain ⟨S, B, h⟩ := trade_main hr hlim hself hx ht
  refine ⟨S, B, h.sell, h.buy, h.sale, h.best hm, h.same h1 h2 h3, ?_, h.limit.1.symm, h.limit.2⟩
  cases m <;> first | rfl | exact absurd hm (fun h => h)

/-- If there is an eligible bid, the call does not end with a resting ask. -/
theorem C12_must_trade {ctx : Ctx} {sender : Addr} {funds : List Coin} {m : Exec} {s s' : State} {msgs : List Msg}
    (hr : Reach p me G s) (hlim : 1 ≤ p.maxLimit) (hm : AskCall m)
    {S : Sell} (hS : SellBy s sender m S)
    (hel : (∃ id b, s.bids.get? id = some b ∧ b.collection = S.coll ∧ b.tokenId = S.tok ∧
        b.details.price.denom = S.limit.denom ∧ S.limit.amount ≤ b.details.price.amount) ∨
      (∃ id b, s.cbids.get? id = some b ∧ b.collection = S.coll ∧
        b.details.price.denom = S.limit.denom ∧ S.limit.amount ≤ b.details.price.amount))
    (hx : execute p ctx sender funds m s = .ok (s', msgs)) : Trades m s' me msgs := by
  have hw := Spec.Reach.wf hr
  have contra : ∀ a : Ask, a.collection = S.coll → a.tokenId = S.tok → a.details.price = S.limit →
      a.matchWithBid p s = none → False := by
    intro a e1 e2 e3 hn
    obtain ⟨k1, k2⟩ := matchWithBid_none hlim hn
    rcases hel with ⟨id, b, g1, g2, g3, g4, g5⟩ | ⟨id, b, g1, g2, g4, g5⟩
    · have := k1 id b g1 (by rw [g2, g3, e1, e2]) (by rw [g4, e3])
      rw [e3] at this; omega
    · have := k2 id b g1 (by rw [g2, e1]) (by rw [g4, e3])
      rw [e3] at this; omega
  have fin : ∀ (a : Ask) (mb : MatchingBid) (x : SaleParts p ctx a s.config mb false),
      a.id = askId p a.collection a.tokenId → (∀ id, m ≠ .removeAsk id) →
      (∀ y ∈ x.msgs, y ∈ msgs) → s' = afterSale s a mb → Trades m s' me msgs := by
    intro a mb x hid hnr hsub hs'
    refine ⟨a.collection, a.tokenId, mb.recipient, hsub _ (by simp [SaleParts.msgs, transferNft]), hnr, ?_⟩
    rintro ⟨_, id, a', d, _, ha', hc, ht, _⟩
    rw [hs'] at ha'
    have h1 := (afterSale_shrink s a mb).ask ha'
    have h2 := (hw.ask h1).2.1
    rw [hc, ht, ← hid] at h2
    rw [h2, afterSale_ask] at ha'
    cases ha'
  cases execute_eff hx with
  | config => exact absurd hm (fun h => h)
  | denom => exact absurd hm (fun h => h)
  | setFee => exact absurd hm (fun h => h)
  | rmFee => exact absurd hm (fun h => h)
  | restAsk coll tok d pay hv hd hown htr hpr hf hpos hfee hmn hnew =>
    exfalso
    cases hS with
    | setAsk => exact contra _ rfl rfl rfl hmn
    | resting _ _ _ hb => exact hb
  | sellAsk m coll tok d pay mb hm' hv hd hown htr hpr hf hpos hfee hmb x =>
    refine fin _ mb x rfl ?_ (fun y hy => List.mem_cons_of_mem _ hy) rfl
    rcases hm' with rfl | rfl <;> simp
  | updAsk id d a hf hd ha hcr hpr hmn =>
    exfalso
    cases hS with
    | updateAsk _ _ a' ha' => rw [ha] at ha'; cases ha'; exact contra { a with details := d } rfl rfl rfl hmn
    | resting _ _ _ hb => exact hb
  | updSell id d a mb hf hd ha hcr hpr hmb x =>
    exact fin _ mb x (by show a.id = _; rw [(hw.ask ha).1]; exact (hw.ask ha).2.1) (by simp) (fun y hy => hy) rfl
  | rmAsk => exact absurd hm (fun h => h)
  | accAsk => exact absurd hm (fun h => h)
  | restBid => exact absurd hm (fun h => h)
  | buyBid m coll tok d fn left a hm' => rcases hm' with rfl | rfl <;> exact absurd hm (fun h => h)
  | updBid => exact absurd hm (fun h => h)
  | updBuy => exact absurd hm (fun h => h)
  | rmBid => exact absurd hm (fun h => h)
  | accBid => exact absurd hm (fun h => h)
  | restCBid => exact absurd hm (fun h => h)
  | buyCBid m coll d fn left a hm' => rcases hm' with rfl | rfl <;> exact absurd hm (fun h => h)
  | updCBid => exact absurd hm (fun h => h)
  | updCBuy => exact absurd hm (fun h => h)
  | rmCBid => exact absurd hm (fun h => h)
  | accCBid => exact absurd hm (fun h => h)

namespace Sample
/-- alice lowers the price to 75: carol's collection bid of 90 beats bob's 80 -/
theorem upd_ok : execute P (ctx (some self)) alice [] (.updateAsk aid (det 75)) s4 =
    .ok (run (ctx (some self)) alice [] (.updateAsk aid (det 75)) s4) := run_eq (by decide +kernel)
example : (run (ctx (some self)) alice [] (.updateAsk aid (det 75)) s4).2 =
    [.initRoyalty registry coll, .send feeMgr [⟨ust, 2⟩], .send artist [⟨ust, 5⟩], .send alice [⟨ust, 83⟩],
     .nft coll tok carol] := by decide +kernel
theorem upd_trades : Trades (.updateAsk aid (det 75))
    (run (ctx (some self)) alice [] (.updateAsk aid (det 75)) s4).1 self
    (run (ctx (some self)) alice [] (.updateAsk aid (det 75)) s4).2 :=
  trades_of (c := coll) (t := tok) (to := carol) (by decide +kernel) (by decide) (by simp)
example := C12_best_bid r4 (by decide) noSlash hashInj prefixFree rfl (by trivial) upd_ok upd_trades
theorem get_ask : s4.asks.get? aid = some (Ask.new P alice coll tok (det 100)) := by decide +kernel
theorem get_bid : s4.bids.get? bid = some (Bid.new P bob coll tok (det' 80 carol) 7 1) := by decide +kernel
theorem get_cbid : s4.cbids.get? cid = some (CBid.new P carol coll (det 90) 7 2) := by decide +kernel
example := C12_must_trade (me := self) r4 (by decide) (by trivial) (.updateAsk aid (det 75) _ get_ask rfl)
  (Or.inl ⟨bid, _, get_bid, rfl, rfl, rfl, by decide⟩) upd_ok
end Sample

/-! ### C13 cheapest listing -/

/-- A buyer of any token of a collection gets one with the lowest ask, at that price, within the limit. -/
theorem C13_cheapest {ctx : Ctx} {sender : Addr} {funds : List Coin} {m : Exec} {s s' : State} {msgs : List Msg}
    (hr : Reach p me G s) (hlim : 1 ≤ p.maxLimit) (h1 : NoSlash p) (h2 : HashInj p) (h3 : PrefixFree p)
    (hself : ctx.self = me) (hm : CollCall m)
    (hx : execute p ctx sender funds m s = .ok (s', msgs)) (ht : Trades m s' me msgs) :
    ∃ S B, SellBy s sender m S ∧ BuyBy s sender m B ∧ Nonempty (Sale ctx.q funds s s' m msgs S B) ∧
      Cheapest s S B ∧ S.coll = B.coll ∧ priceOf m S B = S.limit ∧
      S.limit.denom = B.limit.denom ∧ S.limit.amount ≤ B.limit.amount := by
  obtain ⟨S, B, h⟩ := trade_main hr hlim hself hx ht
  refine ⟨S, B, h.sell, h.buy, h.sale, h.cheap hm, (h.same h1 h2 h3).1, ?_, h.limit⟩
  cases m <;> first | rfl | exact absurd hm (fun h => h)

namespace Sample
/-- bob buys any token of the collection for up to 150 -/
theorem buyAny_ok : execute P (ctx (some self)) bob [⟨ust, 150⟩] (.buyCollectionNft coll (det 150)) s4 =
    .ok (run (ctx (some self)) bob [⟨ust, 150⟩] (.buyCollectionNft coll (det 150)) s4) := run_eq (by decide +kernel)
theorem buyAny_trades : Trades (.buyCollectionNft coll (det 150))
    (run (ctx (some self)) bob [⟨ust, 150⟩] (.buyCollectionNft coll (det 150)) s4).1 self
    (run (ctx (some self)) bob [⟨ust, 150⟩] (.buyCollectionNft coll (det 150)) s4).2 :=
  trades_of (c := coll) (t := tok) (to := bob) (by decide +kernel) (by decide) (by simp)
example := C13_cheapest r4 (by decide) noSlash hashInj prefixFree rfl (by trivial) buyAny_ok buyAny_trades
end Sample

/-! ### C14 limit prices -/

/-- The price charged respects the limits stated by both sides (`SellBy`, `BuyBy` say where they were stated). -/
theorem C14_limits {ctx : Ctx} {sender : Addr} {funds : List Coin} {m : Exec} {s s' : State} {msgs : List Msg}
    (hr : Reach p me G s) (hlim : 1 ≤ p.maxLimit) (hself : ctx.self = me)
    (hx : execute p ctx sender funds m s = .ok (s', msgs)) (ht : Trades m s' me msgs) :
    ∃ S B, SellBy s sender m S ∧ BuyBy s sender m B ∧ Nonempty (Sale ctx.q funds s s' m msgs S B) ∧
      (priceOf m S B).denom = B.limit.denom ∧ (priceOf m S B).amount ≤ B.limit.amount ∧
      (priceOf m S B).denom = S.limit.denom ∧ S.limit.amount ≤ (priceOf m S B).amount := by
  obtain ⟨S, B, h⟩ := trade_main hr hlim hself hx ht
  refine ⟨S, B, h.sell, h.buy, h.sale, ?_⟩
  obtain ⟨l1, l2⟩ := h.limit
  unfold priceOf
  split
  · exact ⟨rfl, Nat.le_refl _, l1.symm, l2⟩
  · exact ⟨l1, l2, rfl, Nat.le_refl _⟩

namespace Sample
/-- alice accepts bob's bid, asking for at least 80 -/
theorem acc_ok : execute P (ctx (some self)) alice [] (.acceptBid bid (det 80)) s4 =
    .ok (run (ctx (some self)) alice [] (.acceptBid bid (det 80)) s4) := run_eq (by decide +kernel)
theorem acc_trades : Trades (.acceptBid bid (det 80))
    (run (ctx (some self)) alice [] (.acceptBid bid (det 80)) s4).1 self
    (run (ctx (some self)) alice [] (.acceptBid bid (det 80)) s4).2 :=
  trades_of (c := coll) (t := tok) (to := bob) (by decide +kernel) (by decide) (by simp)
example := C14_limits r4 (by decide) rfl acc_ok acc_trades
example := C14_limits r4 (by decide) rfl buy_ok buy_trades
end Sample

/-! ### C15 immediate or cancel -/

/-- SellNft, BuySpecificNft and BuyCollectionNft trade and leave no new or changed order. -/
theorem C15_immediate {ctx : Ctx} {sender : Addr} {funds : List Coin} {m : Exec} {s s' : State} {msgs : List Msg}
    (hm : (∃ c t d, m = .sellNft c t d) ∨ (∃ c t d, m = .buySpecificNft c t d) ∨ (∃ c d, m = .buyCollectionNft c d))
    (hx : execute p ctx sender funds m s = .ok (s', msgs)) :
    Trades m s' me msgs ∧ (∀ id a, s'.asks.get? id = some a → s.asks.get? id = some a) ∧
    (∀ id b, s'.bids.get? id = some b → s.bids.get? id = some b) ∧
    (∀ id b, s'.cbids.get? id = some b → s.cbids.get? id = some b) := by
  have nt : ∀ c t to, Msg.nft c t to ∈ msgs → Trades m s' me msgs := by
    intro c t to h
    refine ⟨c, t, to, h, ?_, ?_⟩
    · rintro id rfl; simp at hm
    · rintro ⟨_, id, a, d, rfl, _⟩; simp at hm
  have sub : ∀ (y : Msg) (l : List Coin) (ms : List Msg), y ∈ ms → y ∈ refund sender l ms := by
    intro y l ms h; unfold refund; split
    · exact h
    · exact List.mem_append_left _ h
  have nin : ∀ {a : Ask} {mb : MatchingBid} {abb : Bool} (x : SaleParts p ctx a s.config mb abb),
      Msg.nft a.collection a.tokenId mb.recipient ∈ x.msgs := by
    intro a mb abb x; simp [SaleParts.msgs, transferNft]
  cases execute_eff hx with
  | sellAsk m coll tok d pay mb hm' hv hd hown htr hpr hf hpos hfee hmb x =>
    have k := afterSale_shrink s (Ask.new p sender coll tok d) mb
    exact ⟨nt _ _ _ (List.mem_cons_of_mem _ (nin x)), fun _ _ => k.ask, fun _ _ => k.bid, fun _ _ => k.cbid⟩
  | buyBid m coll tok d fn left a hm' hv hd htr hpr hn ha hl x =>
    have k := afterSale_bump_shrink s a (.bid (Bid.new p sender coll tok d ctx.height (nextNonce s)))
    exact ⟨nt _ _ _ (sub _ _ _ (nin x)), fun _ _ => k.ask, fun _ _ => k.bid, fun _ _ => k.cbid⟩
  | buyCBid m coll d fn left a hm' hv hd htr hpr hn ha hl x =>
    have k := afterSale_bump_shrink s a (.cbid (CBid.new p sender coll d ctx.height (nextNonce s)))
    exact ⟨nt _ _ _ (sub _ _ _ (nin x)), fun _ _ => k.ask, fun _ _ => k.bid, fun _ _ => k.cbid⟩
  | _ => simp at hm

example := C15_immediate (me := Sample.self) (Or.inr (Or.inr ⟨_, _, rfl⟩)) Sample.buyAny_ok
example : ¬ Sample.ok (Sample.ctx (some Sample.self)) Sample.bob [⟨Sample.ust, 50⟩]
    (.buyCollectionNft Sample.coll (Sample.det 50)) Sample.s4 := by decide +kernel

/-! ### C19 listing fee -/

/-- A listing (or immediate sale) was paid with exactly the configured fee, which goes to the fee manager. -/
theorem C19_listing_fee {ctx : Ctx} {sender : Addr} {funds : List Coin} {m : Exec} {s s' : State} {msgs : List Msg}
    {c t : Bytes} {d : Details} (hm : m = .setAsk c t d ∨ m = .sellNft c t d)
    (hx : execute p ctx sender funds m s = .ok (s', msgs)) :
    ∃ fee rest, funds = [fee] ∧ 0 < fee.amount ∧ s.listingFees.get? fee.denom = some fee.amount ∧
      msgs = .send s.config.feeManager [fee] :: rest := by
  cases execute_eff hx with
  | restAsk coll tok d pay hv hd hown htr hpr hf hpos hfee hmn hnew => exact ⟨pay, _, hf, hpos, hfee, rfl⟩
  | sellAsk m coll tok d pay mb hm' hv hd hown htr hpr hf hpos hfee hmb x => exact ⟨pay, _, hf, hpos, hfee, rfl⟩
  | buyBid m coll tok d fn left a hm' => rcases hm' with rfl | rfl <;> simp at hm
  | buyCBid m coll d fn left a hm' => rcases hm' with rfl | rfl <;> simp at hm
  | _ => simp at hm

namespace Sample
theorem list_ok : execute P (ctx (some alice)) alice [⟨ust, 5⟩] (.setAsk coll tok (det 100)) s1 =
    .ok (run (ctx (some alice)) alice [⟨ust, 5⟩] (.setAsk coll tok (det 100)) s1) := run_eq (by decide +kernel)
example := C19_listing_fee (Or.inl rfl) list_ok
example : ¬ ok (ctx (some alice)) alice [⟨ust, 6⟩] (.setAsk coll tok (det 100)) s1 := by decide +kernel
end Sample

/-! ### C20, C21 start of trading -/

/-- The collection reports a start of trading after the current block time. -/
def Future (ctx : Ctx) (coll : Addr) : Prop :=
  ∃ info start, ctx.q.collInfo coll = some info ∧ info.start = some start ∧ ctx.time < start

/-- The calls that check the start of trading, and the collection they are about. -/
inductive Opens : Exec → Addr → Prop where
  | setAsk (c t : Bytes) (d : Details) : Opens (.setAsk c t d) c
  | sellNft (c t : Bytes) (d : Details) : Opens (.sellNft c t d) c
  | setBid (c t : Bytes) (d : Details) : Opens (.setBid c t d) c
  | buySpecific (c t : Bytes) (d : Details) : Opens (.buySpecificNft c t d) c
  | setCBid (c : Bytes) (d : Details) : Opens (.setCollectionBid c d) c
  | buyColl (c : Bytes) (d : Details) : Opens (.buyCollectionNft c d) c

theorem tradable_not_future {ctx : Ctx} {coll : Addr} {u : Unit} (h : onlyTradable ctx coll = .ok u) : ¬ Future ctx coll := by
  rintro ⟨info, start, h1, h2, h3⟩
  unfold onlyTradable at h
  rw [h1] at h; simp only [h2] at h
  rw [if_pos h3] at h; cases h

/-- None of these calls succeeds before trading starts. -/
theorem C20_not_before_start {ctx : Ctx} {sender : Addr} {funds : List Coin} {m : Exec} {s : State} {coll : Addr}
    (hm : Opens m coll) (hfut : Future ctx coll) : ∃ e, execute p ctx sender funds m s = .error e := by
  cases hx : execute p ctx sender funds m s with
  | error e => exact ⟨e, rfl⟩
  | ok r =>
    exfalso
    obtain ⟨s', msgs⟩ := r
    cases execute_eff hx with
    | restAsk coll tok d pay hv hd hown htr => cases hm; exact tradable_not_future htr hfut
    | sellAsk m coll tok d pay mb hm' hv hd hown htr =>
      rcases hm' with rfl | rfl <;> cases hm <;> exact tradable_not_future htr hfut
    | restBid coll tok d fn left hv hd htr => cases hm; exact tradable_not_future htr hfut
    | buyBid m coll tok d fn left a hm' hv hd htr =>
      rcases hm' with rfl | rfl <;> cases hm <;> exact tradable_not_future htr hfut
    | restCBid coll d fn left hv hd htr => cases hm; exact tradable_not_future htr hfut
    | buyCBid m coll d fn left a hm' hv hd htr =>
      rcases hm' with rfl | rfl <;> cases hm <;> exact tradable_not_future htr hfut
    | _ => cases hm

example : Future (Sample.ctx (some Sample.self) (some 2000)) Sample.coll := ⟨_, 2000, rfl, rfl, by decide⟩
example := C20_not_before_start (p := Sample.P) (sender := Sample.bob) (funds := [⟨Sample.ust, 80⟩]) (s := Sample.s4)
  (.setBid Sample.coll Sample.tok (Sample.det 80)) (⟨_, 2000, rfl, rfl, by decide⟩ : Future (Sample.ctx none (some 2000)) Sample.coll)
/-- the same call goes through once trading has started -/
example : Sample.ok (Sample.ctx none (some 1000)) Sample.bob [⟨Sample.ust, 80⟩]
    (.setBid Sample.coll Sample.tok (Sample.det 80)) Sample.s4 = true := by decide +kernel

/-- C21 in full: no call results in a sale of an NFT of a collection that is not yet tradable. -/
def C21_statement : Prop :=
  ∀ (p : Params) (me : Addr) (ctx : Ctx) (sender : Addr) (funds : List Coin) (m : Exec) (s s' : State)
    (msgs : List Msg), Reach p me NoWrap s → 1 ≤ p.maxLimit → ctx.self = me → sender ≠ me →
    execute p ctx sender funds m s = .ok (s', msgs) → Trades m s' me msgs →
    ∀ c t to, Msg.nft c t to ∈ msgs → ¬ Future ctx c

/-- C21 is violated: a listing is bought with AcceptAsk although trading has not started. -/
theorem C21_violated : ¬ C21_statement := by
  intro h
  exact h Sample.P Sample.self (Sample.ctx (some Sample.self) (some 2000)) Sample.bob [⟨Sample.ust, 100⟩]
    (.acceptAsk Sample.aid (Sample.det 100)) Sample.s4 _ _ Sample.r4 (by decide) rfl (by decide)
    (Sample.run_eq (by decide +kernel))
    (Sample.trades_of (c := Sample.coll) (t := Sample.tok) (to := Sample.bob) (by decide +kernel) (by decide) (by simp))
    Sample.coll Sample.tok Sample.bob (by decide +kernel) ⟨_, 2000, rfl, rfl, by decide⟩

/-- What does hold. Missing: AcceptAsk, AcceptBid, AcceptCollectionBid and the three Update calls. -/
theorem C21_partial {ctx : Ctx} {sender : Addr} {funds : List Coin} {m : Exec} {s s' : State} {msgs : List Msg}
    {coll : Addr} (hm : Opens m coll) (hx : execute p ctx sender funds m s = .ok (s', msgs)) : ¬ Future ctx coll := by
  intro hf
  obtain ⟨e, he⟩ := C20_not_before_start (sender := sender) (funds := funds) (s := s) (p := p) hm hf
  rw [hx] at he; cases he

example := C21_partial (.setAsk _ _ _) Sample.list_ok

/-! ### C22 royalties -/

/-- In every sale the royalty is paid as specified by `royaltyShare`: the smaller of the registered share
(protocol entry, else default entry, else the collection's own answer) and the cap; it is rounded up, and is
paid out right before the seller's remainder. Without any of these no royalty is charged. -/
theorem C22_royalty {ctx : Ctx} {sender : Addr} {funds : List Coin} {m : Exec} {s s' : State} {msgs : List Msg}
    (hr : Reach p me G s) (hlim : 1 ≤ p.maxLimit) (hself : ctx.self = me)
    (hx : execute p ctx sender funds m s = .ok (s', msgs)) (ht : Trades m s' me msgs) :
    ∃ S B, SellBy s sender m S ∧ BuyBy s sender m B ∧ ∃ x : Sale ctx.q funds s s' m msgs S B,
      ∃ first last : List (Addr × Nat), (∀ f ∈ last, f.1 = S.payTo) ∧ last.length ≤ 1 ∧
      (∀ f ∈ first, f.1 = s.config.feeManager ∨ some f.1 = S.finder ∨ some f.1 = B.finder) ∧
      x.pays = first ++
        (match royaltyOf ctx.q s.config.royaltyRegistry S.coll with
         | none => []
         | some r =>
           if min r.share (s.config.maxRoyaltyFeeBps * 10^14) = 0 then []
           else [(r.recipient, feeDue (priceOf m S B).amount (min r.share (s.config.maxRoyaltyFeeBps * 10^14)))]) ++
        last := by
  obtain ⟨S, B, h⟩ := trade_main hr hlim hself hx ht
  obtain ⟨x⟩ := h.sale
  refine ⟨S, B, h.sell, h.buy, x, ?_⟩
  have hp := x.hpays
  obtain ⟨last, h1, h2, h3⟩ := split_shape hp
  rw [List.filter_append, List.map_append] at h3
  refine ⟨((feeShares s.config (makerOf m S B) (takerOf m S B)).filter (fun f => decide (f.2 ≠ 0))).map
    (fun f => (f.1, feeDue (priceOf m S B).amount f.2)), last, h1, h2, ?_, ?_⟩
  rotate_left
  · rw [h3]
    congr 2
    unfold royaltyShare
    cases royaltyOf ctx.q s.config.royaltyRegistry S.coll with
    | none => rfl
    | some r =>
      simp only
      rw [filter_one]
      split <;> rfl
  · intro f hf
    rw [List.mem_map] at hf
    obtain ⟨g, hg, rfl⟩ := hf
    rw [List.mem_filter] at hg
    have hmem := hg.1
    unfold feeShares at hmem
    simp only [List.mem_append, List.mem_singleton, List.mem_map, Option.mem_toList] at hmem
    rcases hmem with (rfl | ⟨a, ha, rfl⟩) | ⟨a, ha, rfl⟩
    · exact Or.inl rfl
    · right
      have ha : makerOf m S B = some a := ha
      unfold makerOf at ha
      split at ha
      · exact Or.inr ha.symm
      · exact Or.inl ha.symm
    · right
      have ha : takerOf m S B = some a := ha
      unfold takerOf at ha
      split at ha
      · exact Or.inl ha.symm
      · exact Or.inr ha.symm

example := C22_royalty Sample.r4 (by decide) rfl Sample.buy_ok Sample.buy_trades
example : royaltyShare (Sample.q none none) Sample.cfg Sample.coll = [(Sample.artist, 5 * 10^16)] := by decide +kernel

/-! ### C23 one NFT per call -/

/-- Every successful call moves at most one NFT. -/
theorem C23_at_most_one {ctx : Ctx} {sender : Addr} {funds : List Coin} {m : Exec} {s s' : State} {msgs : List Msg}
    (hr : Reach p me G s) (hlim : 1 ≤ p.maxLimit) (hx : execute p ctx sender funds m s = .ok (s', msgs)) :
    (msgs.filter Msg.isNft).length ≤ 1 := by
  rcases eff_trade (Spec.Reach.wf hr) hlim (execute_eff hx) with h | ⟨id, a, rfl, _, _, rfl⟩ | ⟨c', t', d, id, a, fee, rfl, h1, h2, h3, h4, rfl⟩ | ⟨S, B, h⟩
  · have : msgs.filter Msg.isNft = [] := by
      rw [List.filter_eq_nil_iff]
      intro y hy
      cases y with
      | nft c t to => exact absurd hy (h c t to)
      | _ => simp [Msg.isNft]
    rw [this]; exact Nat.zero_le _
  · exact Nat.le_refl 1
  · exact Nat.le_refl 1
  · obtain ⟨x⟩ := h.sale
    rw [Sale.one_nft x]; simp

/-- A sale moves exactly the sold token, to the buyer's recipient, removes the filled orders and changes no
other order. -/
theorem C23_sale_moves {ctx : Ctx} {sender : Addr} {funds : List Coin} {m : Exec} {s s' : State} {msgs : List Msg}
    (hr : Reach p me NoWrap s) (hg : NoWrap s) (hlim : 1 ≤ p.maxLimit) (h1 : NoSlash p) (h2 : HashInj p)
    (h3 : PrefixFree p) (hself : ctx.self = me)
    (hx : execute p ctx sender funds m s = .ok (s', msgs)) (ht : Trades m s' me msgs) :
    ∃ S B, SellBy s sender m S ∧ BuyBy s sender m B ∧ SameToken S B ∧
      msgs.filter Msg.isNft = [.nft S.coll S.tok B.nftTo] ∧
      (∀ id, S.ask = some id → s'.asks.get? id = none) ∧
      (∀ id, B.bid = some id → s'.bids.get? id = none) ∧
      (∀ id, B.cbid = some id → s'.cbids.get? id = none) ∧
      (∀ id a, S.ask ≠ some id → s.asks.get? id = some a → (a.collection = S.coll → a.tokenId ≠ S.tok) →
        s'.asks.get? id = some a) ∧
      (∀ id, S.ask ≠ some id → s.asks.get? id = none → s'.asks.get? id = none) ∧
      (∀ id, B.bid ≠ some id → s'.bids.get? id = s.bids.get? id) ∧
      (∀ id, B.cbid ≠ some id → s'.cbids.get? id = s.cbids.get? id) := by
  have hw := Spec.Reach.wf hr
  have hn := Spec.Reach.nonce hr
  obtain ⟨S, B, h⟩ := trade_main hr hlim hself hx ht
  obtain ⟨x⟩ := h.sale
  refine ⟨S, B, h.sell, h.buy, h.same h1 h2 h3, Sale.one_nft x, x.hask, x.hbid, x.hcbid, ?_, ?_, h.bids h2 hn hg,
    h.cbids h2 hn hg⟩
  · intro id a hne ha hno
    rcases h.asks id hne with e | ⟨_, e, hv, _⟩
    · rw [e]; exact ha
    · exfalso
      obtain ⟨_, k2, k3, _⟩ := hw.ask ha
      rw [e] at k2
      obtain ⟨e1, e2⟩ := askId_inj h2 h3 hv k3 k2
      exact hno e1.symm e2.symm
  · intro id hne ha
    rcases h.asks id hne with e | ⟨e, _⟩
    · rw [e]; exact ha
    · exact e

example := C23_at_most_one Sample.r4 (by decide) Sample.buy_ok
example := C23_sale_moves Sample.r4 (by decide +kernel) (by decide) Sample.noSlash Sample.hashInj Sample.prefixFree rfl
  Sample.acc_ok Sample.acc_trades

/-! ### C25 token bids stay with their token -/

/-- The index key of a token bid determines collection and token, even if the token id contains '/'. -/
theorem C25_index_key (h1 : NoSlash p) {c c' t t' : Bytes} (hc : p.valid c = true) (hc' : p.valid c' = true) :
    indexStr c t = indexStr c' t' ↔ c = c' ∧ t = t' :=
  ⟨fun h => indexStr_inj (h1 c hc) (h1 c' hc') h, by rintro ⟨rfl, rfl⟩; rfl⟩

/-- Whenever a trade involves a bid on a specific token, it is the token sold. -/
theorem C25_bid_matches_token {ctx : Ctx} {sender : Addr} {funds : List Coin} {m : Exec} {s s' : State}
    {msgs : List Msg} (hr : Reach p me G s) (hlim : 1 ≤ p.maxLimit) (h1 : NoSlash p) (h2 : HashInj p)
    (h3 : PrefixFree p) (hself : ctx.self = me)
    (hx : execute p ctx sender funds m s = .ok (s', msgs)) (ht : Trades m s' me msgs) :
    ∃ S B, SellBy s sender m S ∧ BuyBy s sender m B ∧ Nonempty (Sale ctx.q funds s s' m msgs S B) ∧
      B.coll = S.coll ∧ ∀ t, B.tok = some t → t = S.tok := by
  obtain ⟨S, B, h⟩ := trade_main hr hlim hself hx ht
  exact ⟨S, B, h.sell, h.buy, h.sale, (h.same h1 h2 h3).1.symm, (h.same h1 h2 h3).2⟩

example : indexStr [4,4,4] [47, 49] ≠ indexStr [4,4,4] [49] := by decide
example := (C25_index_key Sample.noSlash (c := [4,4,4]) (c' := [5,4,4]) (t := [47, 49]) (t' := [49]) rfl rfl).mp
example := C25_bid_matches_token Sample.r4 (by decide) Sample.noSlash Sample.hashInj Sample.prefixFree rfl
  Sample.acc_ok Sample.acc_trades

/-! ### C26 only the owner sells -/

/-- The call offers a token that is not listed. -/
inductive Offers (s : State) : Exec → Addr → Bytes → Prop where
  | setAsk (c t : Bytes) (d : Details) : Offers s (.setAsk c t d) c t
  | sellNft (c t : Bytes) (d : Details) : Offers s (.sellNft c t d) c t
  | acceptBid (id : Bytes) (d : Details) (b : Bid) (hb : s.bids.get? id = some b)
      (hn : ∀ i a, s.asks.get? i = some a → a.collection = b.collection → a.tokenId ≠ b.tokenId) :
      Offers s (.acceptBid id d) b.collection b.tokenId
  | acceptCBid (id t : Bytes) (d : Details) (b : CBid) (hb : s.cbids.get? id = some b)
      (hn : ∀ i a, s.asks.get? i = some a → a.collection = b.collection → a.tokenId ≠ t) :
      Offers s (.acceptCollectionBid id t d) b.collection t

/-- C26 in full: such a call succeeds only if the collection reports the sender as owner. -/
def C26_statement : Prop :=
  ∀ (p : Params) (me : Addr) (ctx : Ctx) (sender : Addr) (funds : List Coin) (m : Exec) (s s' : State)
    (msgs : List Msg) (c : Addr) (t : Bytes), Reach p me NoWrap s → ctx.self = me → sender ≠ me → Offers s m c t →
    execute p ctx sender funds m s = .ok (s', msgs) → ctx.q.ownerOf c t = some sender

/-- C26 is violated: when the ownership query fails, the call goes through. -/
theorem C26_violated : ¬ C26_statement := by
  intro h
  have := h Sample.P Sample.self (Sample.ctx none) Sample.bob [⟨Sample.ust, 5⟩]
    (.setAsk Sample.coll Sample.tok (Sample.det 100)) Sample.s1 _ _ Sample.coll Sample.tok Sample.r1 rfl (by decide)
    (.setAsk _ _ _) (Sample.run_eq (by decide +kernel))
  revert this; decide +kernel

/-- What does hold: nobody else is reported as owner. Missing: the query may have failed. -/
theorem C26_partial {ctx : Ctx} {sender : Addr} {funds : List Coin} {m : Exec} {s s' : State} {msgs : List Msg}
    {c : Addr} {t : Bytes} (hr : Reach p me G s) (h2 : HashInj p) (h3 : PrefixFree p) (hm : Offers s m c t)
    (hx : execute p ctx sender funds m s = .ok (s', msgs)) :
    ctx.q.ownerOf c t = some sender ∨ ctx.q.ownerOf c t = none := by
  have hw := Spec.Reach.wf hr
  have key : onlyOwner ctx sender c t = .ok () → ctx.q.ownerOf c t = some sender ∨ ctx.q.ownerOf c t = none := by
    intro h
    cases ho : ctx.q.ownerOf c t with
    | none => exact Or.inr rfl
    | some o => rw [onlyOwner_ok h o ho]; exact Or.inl rfl
  cases execute_eff hx with
  | restAsk coll tok d pay hv hd hown => cases hm; exact key hown
  | sellAsk m coll tok d pay mb hm' hv hd hown =>
    rcases hm' with rfl | rfl <;> cases hm <;> exact key hown
  | buyBid m coll tok d fn left a hm' => rcases hm' with rfl | rfl <;> cases hm
  | buyCBid m coll d fn left a hm' => rcases hm' with rfl | rfl <;> cases hm
  | accBid id d b a hd hb hpr ha x =>
    cases hm with
    | acceptBid _ _ b' hb' hn =>
      rw [hb] at hb'; cases hb'
      rcases acceptor_cases ha with ⟨k1, k2⟩ | ⟨k1, k2, rfl⟩
      · have := same_of_id hw (hw.bid hb).2.1 k1 h2 h3
        exact absurd this.2.symm (hn _ _ k1 this.1)
      · exact key k2
  | accCBid id tok d b a hd hb hpr ha x =>
    cases hm with
    | acceptCBid _ _ _ b' hb' hn =>
      rw [hb] at hb'; cases hb'
      rcases acceptor_cases ha with ⟨k1, k2⟩ | ⟨k1, k2, rfl⟩
      · have := same_of_id hw (hw.cbid hb).2.1 k1 h2 h3
        exact absurd this.2.symm (hn _ _ k1 this.1)
      · exact key k2
  | _ => cases hm

example := C26_partial Sample.r1 Sample.hashInj Sample.prefixFree (.setAsk _ _ _) Sample.list_ok

/-- Such a call tries to move the offered token. -/
theorem offer_moves {ctx : Ctx} {sender : Addr} {funds : List Coin} {m : Exec} {s s' : State} {msgs : List Msg}
    {c : Addr} {t : Bytes} (hr : Reach p me G s) (h2 : HashInj p) (h3 : PrefixFree p) (hm : Offers s m c t)
    (hx : execute p ctx sender funds m s = .ok (s', msgs)) : ∃ to, Msg.nft c t to ∈ msgs := by
  have hw := Spec.Reach.wf hr
  cases execute_eff hx with
  | restAsk coll tok d pay hv hd hown => cases hm; exact ⟨ctx.self, by simp⟩
  | sellAsk m coll tok d pay mb hm' hv hd hown _ _ _ _ _ _ x =>
    rcases hm' with rfl | rfl <;> cases hm <;> exact ⟨mb.recipient, by simp [SaleParts.msgs, transferNft, Ask.new]⟩
  | buyBid m coll tok d fn left a hm' => rcases hm' with rfl | rfl <;> cases hm
  | buyCBid m coll d fn left a hm' => rcases hm' with rfl | rfl <;> cases hm
  | accBid id d b a hd hb hpr ha x =>
    cases hm with
    | acceptBid _ _ b' hb' hn =>
      rw [hb] at hb'; cases hb'
      rcases acceptor_cases ha with ⟨k1, k2⟩ | ⟨k1, k2, rfl⟩
      · have := same_of_id hw (hw.bid hb).2.1 k1 h2 h3
        exact absurd this.2.symm (hn _ _ k1 this.1)
      · exact ⟨b.assetRecipient, by simp [SaleParts.msgs, transferNft, Ask.new, MatchingBid.recipient]⟩
  | accCBid id tok d b a hd hb hpr ha x =>
    cases hm with
    | acceptCBid _ _ _ b' hb' hn =>
      rw [hb] at hb'; cases hb'
      rcases acceptor_cases ha with ⟨k1, k2⟩ | ⟨k1, k2, rfl⟩
      · have := same_of_id hw (hw.cbid hb).2.1 k1 h2 h3
        exact absurd this.2.symm (hn _ _ k1 this.1)
      · exact ⟨b.assetRecipient, by simp [SaleParts.msgs, transferNft, Ask.new, MatchingBid.recipient]⟩
  | _ => cases hm

/-- On a conforming collection the transaction completes only if the sender owns the token: otherwise the
NFT transfer stays pending whatever happens (so the chain reverts the transaction). -/
theorem C26_conforming {honest : Addr → Prop} {w : World State} {stack : List Msg} {q : Queries} {sender : Addr}
    {funds : List Coin} {m : Exec} {s' : State} {msgs : List Msg} {c : Addr} {t : Bytes} (hlim : 1 ≤ p.maxLimit)
    (hr : Reach p me G w.st) (h2 : HashInj p) (h3 : PrefixFree p)
    (hq : (sys p me honest).queriesOk w q) (hc : honest c) (hm : Offers w.st m c t)
    (hx : execute p ((sys p me honest).ctx w q) sender funds m w.st = .ok (s', msgs)) :
    w.owner c t = some sender ∨
    ∀ x, (sys p me honest).Steps
      ({ w with bank := moveFunds w.bank sender me funds, st := s' }, msgs ++ stack) x →
      ∃ to, Msg.nft c t to ∈ x.2 := by
  rcases C26_partial hr h2 h3 hm hx with h | h
  · left; rw [← hq c t hc]; exact h
  · right
    have ho : w.owner c t = none := by rw [← hq c t hc]; exact h
    intro x hs
    refine Sys.Doomed.stuck (S := sys p me honest) ⟨hc, ho, ?_⟩ hs
    have hpl : ∀ (y : Msg), (∃ to cs, y = .send to cs) ∨ (∃ a b, y = .initRoyalty a b) → y.plain := by
      rintro y (⟨_, _, rfl⟩ | ⟨_, _, rfl⟩) <;> trivial
    rcases eff_trade (Spec.Reach.wf hr) hlim (execute_eff hx) with e | ⟨id, a, rfl, _⟩ | ⟨c', t', d, id, a, fee, rfl, g1, g2, g3, g4, rfl⟩ | ⟨S, B, e⟩
    · exact absurd (offer_moves hr h2 h3 hm hx) (fun ⟨to, hmem⟩ => e c t to hmem)
    · cases hm
    · cases hm
      exact ⟨[_], me, stack, rfl, by intro y hy; rw [List.mem_singleton] at hy; exact hpl y (Or.inl ⟨_, _, hy⟩)⟩
    · obtain ⟨x⟩ := e.sale
      obtain ⟨to, hto⟩ := offer_moves hr h2 h3 hm hx
      have hone := x.one_nft
      have hin : Msg.nft c t to ∈ msgs.filter Msg.isNft := List.mem_filter.mpr ⟨hto, rfl⟩
      rw [hone, List.mem_singleton] at hin
      simp only [Msg.nft.injEq] at hin
      obtain ⟨rfl, rfl, rfl⟩ := hin
      refine ⟨x.pre ++ x.pays.map (fun y => .send y.1 [⟨(priceOf m S B).denom, y.2⟩]), B.nftTo, x.post ++ stack, ?_, ?_⟩
      · conv => lhs; rw [x.hmsgs]
        simp
      · intro y hy
        rw [List.mem_append] at hy
        rcases hy with hy | hy
        · rcases x.hpre y hy with ⟨_, e⟩ | e
          · exact hpl y (Or.inl ⟨_, _, e⟩)
          · exact hpl y (Or.inr ⟨_, _, e⟩)
        · rw [List.mem_map] at hy
          obtain ⟨z, _, e⟩ := hy
          exact hpl y (Or.inl ⟨_, _, e.symm⟩)

/-- bob tries to list a token that does not exist -/
example := C26_conforming (p := Sample.P) (me := Sample.self) (honest := fun _ => True)
  (w := ⟨fun _ _ => 100, fun _ _ => none, fun _ _ => false, 1000, 7, Sample.s1⟩) (stack := []) (q := ⟨some none,
    fun _ _ => none, fun _ _ => false, fun _ => none, fun _ _ => none⟩) (by decide) Sample.r1 Sample.hashInj
  Sample.prefixFree (fun _ _ _ => rfl) trivial (.setAsk Sample.coll Sample.tok (Sample.det 100))
  (Sample.run_eq (sender := Sample.bob) (funds := [⟨Sample.ust, 5⟩]) (by decide +kernel))

end
end Verif.V2

/-
Marketplace v2: what other open orders do to a seller and to a buyer (C141, C142).
-/
import Verif.V2.PropsLive
import Verif.V2.PropsFair

namespace Verif.V2
open Verif Spec

/-! ### Specification -/

/-- The fees on a price: each share rounded up for itself. -/
def Spec.charged (price : Nat) (fees : List (Addr × Nat)) : Nat := (fees.map (fun f => feeDue price f.2)).sum

/-- The same settings and listings, and at least the bids of `s`. -/
structure Spec.MoreBids (s s2 : State) : Prop where
  config : s2.config = s.config
  denoms : s2.collectionDenoms = s.collectionDenoms
  fees : s2.listingFees = s.listingFees
  asks : s2.asks = s.asks
  bids : ∀ id b, s.bids.get? id = some b → s2.bids.get? id = some b
  cbids : ∀ id b, s.cbids.get? id = some b → s2.cbids.get? id = some b

/-- Amounts of bids are 128 bit numbers. -/
structure Spec.BidsFit (s : State) : Prop where
  bids : ∀ id b, s.bids.get? id = some b → b.details.price.amount < 2^128
  cbids : ∀ id b, s.cbids.get? id = some b → b.details.price.amount < 2^128

/-- The account that gets the proceeds of `S` gets nothing else out of a sale: no fee, no royalty, no finder's reward. -/
structure Spec.Apart (q : Queries) (s : State) (S : Sell) : Prop where
  manager : s.config.feeManager ≠ S.payTo
  royalty : ∀ r, royaltyOf q s.config.royaltyRegistry S.coll = some r → r.recipient ≠ S.payTo
  finder : S.finder ≠ some S.payTo
  bids : ∀ id b, s.bids.get? id = some b → b.details.finder ≠ some S.payTo
  cbids : ∀ id b, s.cbids.get? id = some b → b.details.finder ≠ some S.payTo

/-- The same settings and collection bids, and at least the listings of `s`. -/
structure Spec.MoreAsks (s s2 : State) : Prop where
  config : s2.config = s.config
  denoms : s2.collectionDenoms = s.collectionDenoms
  nonce : s2.nonce = s.nonce
  cbids : s2.cbids = s.cbids
  asks : ∀ id a, s.asks.get? id = some a → s2.asks.get? id = some a

/-- With more bids, a seller's call still sells, and the seller is paid no less. -/
def C141_statement : Prop :=
  ∀ (p : Params) (me : Addr), 1 ≤ p.maxLimit → HashInj p → PrefixFree p → NoSlash p → ∀ (s s2 : State), Reach p me NoWrap s →
    Reach p me NoWrap s2 → MoreBids s s2 → BidsFit s2 → ∀ (ctx : Ctx) (sender : Addr) (funds : List Coin) (m : Exec) (s' : State)
      (msgs : List Msg), ctx.self = me → AskCall m → execute p ctx sender funds m s = .ok (s', msgs) → Trades m s' me msgs →
    ∀ S, SellBy s sender m S → Apart ctx.q s2 S →
    ∃ s2' msgs2, execute p ctx sender funds m s2 = .ok (s2', msgs2) ∧ ∀ dn, gets S.payTo dn msgs ≤ gets S.payTo dn msgs2

/-- With more listings, a call for any token of a collection that was accepted is still accepted. -/
def C142_statement : Prop :=
  ∀ (p : Params) (me : Addr), 1 ≤ p.maxLimit → HashInj p → PrefixFree p → NoSlash p → ∀ (s s2 : State), Reach p me NoWrap s →
    Reach p me NoWrap s2 → MoreAsks s s2 → ∀ (ctx : Ctx) (sender : Addr) (funds : List Coin) (m : Exec) (s' : State)
      (msgs : List Msg), ctx.self = me → CollCall m → execute p ctx sender funds m s = .ok (s', msgs) →
    ∃ s2' msgs2, execute p ctx sender funds m s2 = .ok (s2', msgs2)

/-! ### Arithmetic of fees -/

theorem feeDue_zero (price : Nat) : feeDue price 0 = 0 := by
  unfold feeDue; rw [Nat.mul_zero]

theorem charged_filter (price : Nat) (fs : List (Addr × Nat)) :
    ((fs.filter (fun f => decide (f.2 ≠ 0))).map (fun f => feeDue price f.2)).sum = charged price fs := by
  unfold charged
  induction fs with
  | nil => rfl
  | cons f t ih =>
    by_cases h : f.2 = 0
    · rw [List.filter_cons_of_neg (by simp [h]), List.map_cons, List.sum_cons, ih, h, feeDue_zero, Nat.zero_add]
    · rw [List.filter_cons_of_pos (by simp [h]), List.map_cons, List.map_cons, List.sum_cons, List.sum_cons, ih]

theorem charged_ge (price : Nat) (fs : List (Addr × Nat)) :
    price * (fs.map Prod.snd).sum ≤ 10^18 * charged price fs := by
  unfold charged
  induction fs with
  | nil => simp
  | cons f t ih =>
    simp only [List.map_cons, List.sum_cons, Nat.mul_add]
    have : price * f.2 ≤ 10^18 * feeDue price f.2 := by unfold feeDue; omega
    omega

theorem charged_lt (price : Nat) (fs : List (Addr × Nat)) :
    10^18 * charged price fs + fs.length ≤ price * (fs.map Prod.snd).sum + fs.length * 10^18 := by
  unfold charged
  induction fs with
  | nil => simp
  | cons f t ih =>
    simp only [List.map_cons, List.sum_cons, Nat.mul_add, List.length_cons, Nat.add_mul, Nat.one_mul]
    have : 10^18 * feeDue price f.2 + 1 ≤ price * f.2 + 10^18 := by unfold feeDue; omega
    omega

theorem split_charged {price : Nat} {seller : Addr} {fs pays : List (Addr × Nat)} (h : split price seller fs = some pays) :
    charged price fs ≤ price ∧ pays = (fs.filter (fun f => decide (f.2 ≠ 0))).map (fun f => (f.1, feeDue price f.2)) ++
      (if charged price fs = price then [] else [(seller, price - charged price fs)]) := by
  unfold split at h
  simp only [List.map_map] at h
  have e : (Prod.snd ∘ fun f : Addr × Nat => (f.1, feeDue price f.2)) = (fun f => feeDue price f.2) := rfl
  rw [e, charged_filter] at h
  split at h
  · cases h
  · simp only [Option.some.injEq] at h
    exact ⟨by omega, h.symm⟩

theorem split_some {price : Nat} (seller : Addr) {fs : List (Addr × Nat)} (h : charged price fs ≤ price) :
    ∃ pays, split price seller fs = some pays := by
  unfold split
  simp only [List.map_map]
  have e : (Prod.snd ∘ fun f : Addr × Nat => (f.1, feeDue price f.2)) = (fun f => feeDue price f.2) := rfl
  rw [e, charged_filter, if_neg (by omega)]
  exact ⟨_, rfl⟩

/-- At a higher price with the same total share, up to four fees take at most three more than the price has risen by. -/
theorem charged_more {price price2 : Nat} {fs fs2 : List (Addr × Nat)} (hle : price ≤ price2) (hpos : 0 < price)
    (hsum : (fs.map Prod.snd).sum = (fs2.map Prod.snd).sum) (hlen : fs2.length ≤ 4) (h : charged price fs ≤ price) :
    charged price2 fs2 + (price - charged price fs) ≤ price2 + 3 := by
  have h1 := charged_ge price fs
  have h2 := charged_lt price2 fs2
  rw [← hsum] at h2
  have h3 : (fs.map Prod.snd).sum ≤ 10^18 := by
    apply Nat.le_of_mul_le_mul_left _ hpos
    omega
  obtain ⟨k, rfl⟩ := Nat.le.dest hle
  have h4 : k * (fs.map Prod.snd).sum ≤ k * 10^18 := Nat.mul_le_mul_left _ h3
  rw [Nat.add_mul] at h2
  rcases Nat.eq_zero_or_pos fs2.length with e | e
  · have : fs2 = [] := List.eq_nil_of_length_eq_zero e
    subst this
    simp only [charged, List.map_nil, List.sum_nil]
    omega
  · omega

theorem received_split {price : Nat} {seller : Addr} {fs pays : List (Addr × Nat)} {dn den : Denom}
    (hn : ∀ f ∈ fs, f.1 ≠ seller) (h : split price seller fs = some pays) :
    received seller dn den pays = if dn = den then price - charged price fs else 0 := by
  obtain ⟨_, rfl⟩ := split_charged h
  unfold received
  by_cases e : dn = den
  · rw [if_pos e, if_pos e, List.filter_append, List.map_append, List.sum_append]
    have : ((fs.filter (fun f => decide (f.2 ≠ 0))).map (fun f => (f.1, feeDue price f.2))).filter
        (fun y => decide (y.1 = seller)) = [] := by
      rw [List.filter_eq_nil_iff]
      intro y hy
      obtain ⟨f, hf, rfl⟩ := List.mem_map.mp hy
      simpa using hn f (List.mem_filter.mp hf).1
    rw [this]
    split
    · rename_i e2; simp [e2]
    · simp
  · rw [if_neg e, if_neg e]

section
variable {p : Params} {me : Addr}

/-! ### The parts of a sale -/

/-- The fees of a sale. -/
def saleShares (ctx : Ctx) (c : Config) (a : Ask) (mb : MatchingBid) (abb : Bool) : List (Addr × Nat) :=
  feeShares c (saleTerms a mb abb).2.1 (saleTerms a mb abb).2.2 ++ royaltyShare ctx.q c a.collection

theorem parts_split {ctx : Ctx} {s : State} (hw : WF p s) {a : Ask} {mb : MatchingBid} {abb : Bool}
    (x : SaleParts p ctx a s.config mb abb) :
    split (saleTerms a mb abb).1.amount a.assetRecipient (saleShares ctx s.config a mb abb) =
      some (x.payments.map (fun x => (x.recipient, x.funds.amount))) := by
  rw [← (buildPayments_split x.hpay).1]
  apply split_congr
  rw [saleFees_spec hw.cfg.1 hw.cfg.2 x.hpf x.hfees]
  unfold saleShares royaltyShare
  rw [← fetchOrSet_royalty x.hroy]
  cases x.roy.1 <;> rfl

/-- What the account that is to be paid gets from the messages of a sale. -/
theorem parts_gets {ctx : Ctx} {s : State} (hw : WF p s) {a : Ask} {mb : MatchingBid} {abb : Bool}
    (x : SaleParts p ctx a s.config mb abb) (hn : ∀ f ∈ saleShares ctx s.config a mb abb, f.1 ≠ a.assetRecipient) (dn : Denom) :
    gets a.assetRecipient dn x.msgs = if dn = (saleTerms a mb abb).1.denom then
      (saleTerms a mb abb).1.amount - charged (saleTerms a mb abb).1.amount (saleShares ctx s.config a mb abb) else 0 := by
  unfold SaleParts.msgs
  rw [gets_append, gets_append, payoutMsgs_eq (buildPayments_split x.hpay).2, gets_pays, received_split hn (parts_split hw x),
    gets_royalty _ _ s.config.royaltyRegistry a.collection (pre := x.roy.2)]
  · simp [transferNft, gets]
  · intro y hy
    rcases fetchOrSet_msgs x.hroy with h | h
    · rw [h] at hy; cases hy
    · rw [h, List.mem_singleton] at hy; exact hy

/-- Another bid at a price that covers the fees can be settled too. -/
theorem parts_other {ctx : Ctx} {c : Config} (hc : c.protocolFeeBps < 10000 ∧ c.makerRewardBps + c.takerRewardBps < 10000)
    {a : Ask} {mb mb2 : MatchingBid} (x : SaleParts p ctx a c mb false) (hfit : mb2.details.price.amount < 2^128)
    (h : charged mb2.details.price.amount (saleShares ctx c a mb2 false) ≤ mb2.details.price.amount) :
    Nonempty (SaleParts p ctx a c mb2 false) := by
  obtain ⟨pf, fees, hpf, hfees⟩ := C02_never_aborts c (configValidate_ok.mpr hc) (saleTerms a mb2 false).2.1
    (saleTerms a mb2 false).2.2 x.roy.1
  obtain ⟨pays, hsp⟩ := split_some a.assetRecipient h
  have hsp' : split (saleTerms a mb2 false).1.amount a.assetRecipient (fees.map (fun f => (f.recipient, f.share))) = some pays := by
    rw [← hsp]
    apply split_congr
    rw [saleFees_spec hc.1 hc.2 hpf hfees]
    unfold saleShares royaltyShare
    rw [← fetchOrSet_royalty x.hroy]
    cases x.roy.1 <;> rfl
  cases hb : buildPayments (saleTerms a mb2 false).1 a.assetRecipient fees with
  | ok ps => exact ⟨⟨pf, x.roy, fees, ps, hpf, x.hroy, hfees, hb⟩⟩
  | error e =>
    have := (C01_processor_rejects (by unfold U128MAX; show mb2.details.price.amount ≤ _; omega)).mp ⟨e, hb⟩
    rw [hsp'] at this; cases this

theorem saleShares_sum {ctx : Ctx} {c : Config} (h2 : c.makerRewardBps + c.takerRewardBps < 10000) (a : Ask) (mb mb2 : MatchingBid)
    (abb : Bool) : ((saleShares ctx c a mb abb).map Prod.snd).sum = ((saleShares ctx c a mb2 abb).map Prod.snd).sum := by
  unfold saleShares
  rw [List.map_append, List.sum_append, List.map_append, List.sum_append, feeShares_sum h2, feeShares_sum h2]

theorem saleShares_len (ctx : Ctx) (c : Config) (a : Ask) (mb : MatchingBid) (abb : Bool) :
    (saleShares ctx c a mb abb).length ≤ 4 := by
  unfold saleShares feeShares royaltyShare
  simp only [List.length_append, List.length_map, List.length_cons, List.length_nil]
  have h1 : ∀ o : Option Addr, o.toList.length ≤ 1 := by intro o; cases o <;> simp
  have := h1 (saleTerms a mb abb).2.1
  have := h1 (saleTerms a mb abb).2.2
  split
  · simp only [List.length_cons, List.length_nil]; omega
  · simp only [List.length_nil]; omega

/-! ### C141 -/

/-- With more bids an ask is matched at no lower price. -/
theorem match_more (hlim : 1 ≤ p.maxLimit) {s s2 : State} (hmore : MoreBids s s2) {a : Ask} {mb : MatchingBid}
    (h : a.matchWithBid p s = some mb) : ∃ mb2, a.matchWithBid p s2 = some mb2 ∧
      mb.details.price.denom = a.details.price.denom ∧ mb2.details.price.denom = a.details.price.denom ∧
      mb.details.price.amount ≤ mb2.details.price.amount ∧
      ((∃ id b, s2.bids.get? id = some b ∧ mb2 = .bid b) ∨ ∃ id b, s2.cbids.get? id = some b ∧ mb2 = .cbid b) := by
  cases h2 : a.matchWithBid p s2 with
  | none =>
    exfalso
    obtain ⟨n1, n2⟩ := matchWithBid_none hlim h2
    cases mb with
    | bid b =>
      obtain ⟨⟨id, e1⟩, e2, e3, e4, _⟩ := matchWithBid_bid hlim h
      have := n1 id b (hmore.bids _ _ e1) e2 e3
      omega
    | cbid b =>
      obtain ⟨⟨id, e1⟩, e2, e3, e4, _⟩ := matchWithBid_cbid hlim h
      have := n2 id b (hmore.cbids _ _ e1) e2 e3
      omega
  | some mb2 =>
    refine ⟨mb2, rfl, ?_⟩
    cases mb2 with
    | bid b2 =>
      obtain ⟨⟨id2, f1⟩, f2, f3, f4, f5, f6⟩ := matchWithBid_bid hlim h2
      cases mb with
      | bid b =>
        obtain ⟨⟨id, e1⟩, e2, e3, e4, _⟩ := matchWithBid_bid hlim h
        exact ⟨e3, f3, f5 id b (hmore.bids _ _ e1) e2 e3, Or.inl ⟨id2, b2, f1, rfl⟩⟩
      | cbid b =>
        obtain ⟨⟨id, e1⟩, e2, e3, e4, _⟩ := matchWithBid_cbid hlim h
        exact ⟨e3, f3, f6 id b (hmore.cbids _ _ e1) e2 e3, Or.inl ⟨id2, b2, f1, rfl⟩⟩
    | cbid b2 =>
      obtain ⟨⟨id2, f1⟩, f2, f3, f4, f5, f6⟩ := matchWithBid_cbid hlim h2
      cases mb with
      | bid b =>
        obtain ⟨⟨id, e1⟩, e2, e3, e4, _⟩ := matchWithBid_bid hlim h
        exact ⟨e3, f3, Nat.le_of_lt (f5 id b (hmore.bids _ _ e1) e2 e3), Or.inr ⟨id2, b2, f1, rfl⟩⟩
      | cbid b =>
        obtain ⟨⟨id, e1⟩, e2, e3, e4, _⟩ := matchWithBid_cbid hlim h
        exact ⟨e3, f3, f6 id b (hmore.cbids _ _ e1) e2 e3, Or.inr ⟨id2, b2, f1, rfl⟩⟩

/-- A seller's call that trades, with the ask it amounts to. -/
structure AskSale (p : Params) (ctx : Ctx) (sender : Addr) (funds : List Coin) (m : Exec) (s : State) (s' : State)
    (msgs : List Msg) (S : Sell) where
  a : Ask
  mb : MatchingBid
  pre : List Msg
  x : SaleParts p ctx a s.config mb false
  hmb : a.matchWithBid p s = some mb
  hs : s' = afterSale s a mb
  hmsgs : msgs = pre ++ x.msgs
  hpre : ∀ y ∈ pre, Lists m = true ∧ y = .send s.config.feeManager funds
  hv : p.valid a.collection = true
  hc : S.coll = a.collection
  ht : S.tok = a.tokenId
  hpt : S.payTo = a.assetRecipient
  hl : S.limit = a.details.price
  hsf : S.finder = a.details.finder
  hask : S.ask = some a.id ∨ (S.ask = none ∧ a.id = askId p S.coll S.tok ∧ ∀ o, ctx.q.ownerOf S.coll S.tok = some o → o = sender)
  /-- the same call when another bid is matched -/
  other : ∀ {s2 : State}, MoreBids s s2 → ∀ {mb2 : MatchingBid}, a.matchWithBid p s2 = some mb2 →
    ∀ x2 : SaleParts p ctx a s2.config mb2 false, execute p ctx sender funds m s2 = .ok (afterSale s2 a mb2, pre ++ x2.msgs)

theorem finalize_parts {ctx : Ctx} {s : State} {a : Ask} {c : Config} {mb : MatchingBid} {abb : Bool} {resp : List Msg}
    (x : SaleParts p ctx a c mb abb) : finalizeSale p ctx s a c mb abb resp = .ok (afterSale s a mb, resp ++ x.msgs) := by
  unfold finalizeSale
  simp only [bind_ok]
  refine ⟨x.pf, x.hpf, x.roy, x.hroy, x.fees, x.hfees, x.payments, x.hpay, ?_⟩
  unfold SaleParts.msgs afterSale
  simp [List.append_assoc]

theorem priceOk_more {s s2 : State} (h1 : s2.config = s.config) (h2 : s2.collectionDenoms = s.collectionDenoms) {coll : Addr}
    {c : Coin} (h : PriceOk s coll c) : PriceOk s2 coll c := by
  unfold PriceOk at *
  rw [h1, h2]; exact h

theorem ask_sale {s s' : State} (hr : Reach p me NoWrap s) {ctx : Ctx} {sender : Addr} {funds : List Coin} {m : Exec}
    {msgs : List Msg} (hself : ctx.self = me) (hm : AskCall m) (hx : execute p ctx sender funds m s = .ok (s', msgs))
    (ht : Trades m s' me msgs) {S : Sell} (hS : SellBy s sender m S) : Nonempty (AskSale p ctx sender funds m s s' msgs S) := by
  have hw := Spec.Reach.wf hr
  cases execute_eff hx with
  | sellAsk m coll tok d pay mb hm' hv hd hown htr hpr hf hpos hfee hmb x =>
    have hS' : S = ⟨none, coll, tok, sender, d.price, d.recipient.getD sender, d.finder⟩ := by
      rcases hm' with rfl | rfl <;> cases hS <;> first | rfl | exact absurd ‹BuyerCall _› id
    subst hS'
    refine ⟨⟨_, mb, [.send s.config.feeManager [pay]], x, hmb, rfl, rfl, ?_, hv, rfl, rfl, rfl, rfl, rfl,
      Or.inr ⟨rfl, rfl, onlyOwner_ok hown⟩, ?_⟩⟩
    · intro y hy
      rw [List.mem_singleton] at hy
      refine ⟨?_, by rw [hy, hf]⟩
      rcases hm' with rfl | rfl <;> rfl
    · intro s2 hmore mb2 hmb2 x2
      have hfm : s2.config.feeManager = s.config.feeManager := by rw [hmore.config]
      have hone : oneCoin [pay] = .ok pay := by unfold oneCoin; simp; omega
      subst hf
      rcases hm' with rfl | rfl
      all_goals
        simp only [execute, executeSetAsk, bind_ok, addrValidate_ok, strToAddr_ok, onlyValidPrice_ok, orErr_ok, ensure_ok]
        refine ⟨coll, ⟨hv, rfl⟩, d, ⟨hd, rfl⟩, (), hown, (), htr, (), priceOk_more hmore.config hmore.denoms hpr, pay, hone,
          pay.amount, ?_, (), rfl, ?_⟩
        · rw [hmore.fees]; exact hfee
        · rw [hmb2]
          simp only
          rw [finalize_parts x2, hfm]; rfl
  | updSell id d a mb hf hd ha hcr hpr hmb x =>
    have hS' : S = ⟨some id, a.collection, a.tokenId, sender, d.price, d.recipient.getD sender, d.finder⟩ := by
      cases hS with
      | updateAsk id d a' ha' hc' => rw [ha] at ha'; cases ha'; rfl
      | resting _ _ _ h => exact h.elim
    subst hS'
    refine ⟨⟨_, mb, [], x, hmb, rfl, rfl, by simp, (hw.ask ha).2.2.1, rfl, rfl, ?_, rfl, rfl, Or.inl ?_, ?_⟩⟩
    · rw [hcr]; rfl
    · rw [← (hw.ask ha).1]
    · intro s2 hmore mb2 hmb2 x2
      subst hf
      simp only [execute, executeUpdateAsk, bind_ok, strToAddr_ok, onlyValidPrice_ok, orErr_ok, ensure_ok, nonpayable_ok]
      refine ⟨d, ⟨hd, rfl⟩, (), trivial, a, ?_, (), hcr, (), priceOk_more hmore.config hmore.denoms hpr, ?_⟩
      · rw [hmore.asks]; exact ha
      · rw [hmb2]
        simp only
        rw [finalize_parts x2]
  | restAsk coll tok d pay hv hd hown htr hpr hf hpos hfee hmb hnew =>
    exfalso
    obtain ⟨c, t, to, h1, _, h3⟩ := ht
    simp only [List.mem_cons, reduceCtorEq, Msg.nft.injEq, List.not_mem_nil, or_false, false_or] at h1
    obtain ⟨rfl, rfl, rfl⟩ := h1
    exact h3 ⟨hself, askId p c t, Ask.new p sender c t d, d, rfl, by simp, rfl, rfl, rfl⟩
  | updAsk => obtain ⟨c, t, to, h1, _⟩ := ht; cases h1
  | buyBid m coll tok d fn left a hm' => rcases hm' with rfl | rfl <;> exact hm.elim
  | buyCBid m coll d fn left a hm' => rcases hm' with rfl | rfl <;> exact hm.elim
  | _ => exact hm.elim

theorem AskSale.traded {ctx : Ctx} {sender : Addr} {funds : List Coin} {m : Exec} {s s' : State} {msgs : List Msg} {S : Sell}
    (y : AskSale p ctx sender funds m s s' msgs S) (hlim : 1 ≤ p.maxLimit) (hm : AskCall m) {s2 : State} (hr2 : Reach p me NoWrap s2)
    (hmore : MoreBids s s2) (hS : SellBy s2 sender m S) {mb2 : MatchingBid} (hmb : y.a.matchWithBid p s2 = some mb2)
    (x2 : SaleParts p ctx y.a s2.config mb2 false) :
    Traded p ctx.q s2 sender funds m (afterSale s2 y.a mb2) (y.pre ++ x2.msgs) := by
  apply traded_ask (S := S) (Spec.Reach.wf hr2) hlim hm hS hmb x2 y.pre _ y.hv y.hc y.ht y.hpt y.hl y.hsf y.hask
  intro z hz
  rw [hmore.config]; exact y.hpre z hz

theorem match_in (hlim : 1 ≤ p.maxLimit) {s : State} {a : Ask} {mb : MatchingBid} (h : a.matchWithBid p s = some mb) :
    (∃ id b, s.bids.get? id = some b ∧ mb = .bid b) ∨ ∃ id b, s.cbids.get? id = some b ∧ mb = .cbid b := by
  cases mb with
  | bid b => obtain ⟨⟨id, e⟩, _⟩ := matchWithBid_bid hlim h; exact Or.inl ⟨id, b, e, rfl⟩
  | cbid b => obtain ⟨⟨id, e⟩, _⟩ := matchWithBid_cbid hlim h; exact Or.inr ⟨id, b, e, rfl⟩

theorem sellBy_det {s : State} {sender : Addr} {m : Exec} (hm : AskCall m) {S S' : Sell} (h : SellBy s sender m S)
    (h' : SellBy s sender m S') : S = S' := by
  cases h with
  | setAsk => cases h' with
    | setAsk => rfl
    | resting _ _ _ hb => exact hb.elim
  | sellNft => cases h' with
    | sellNft => rfl
    | resting _ _ _ hb => exact hb.elim
  | updateAsk id d a ha => cases h' with
    | updateAsk _ _ a' ha' => rw [ha] at ha'; cases ha'; rfl
    | resting _ _ _ hb => exact hb.elim
  | resting _ _ _ hb => cases m <;> first | exact hm.elim | exact hb.elim
  | _ => exact hm.elim

theorem sellBy_more {s s2 : State} (hmore : MoreBids s s2) {sender : Addr} {m : Exec} (hm : AskCall m) {S : Sell}
    (h : SellBy s sender m S) : SellBy s2 sender m S := by
  cases h with
  | setAsk => exact .setAsk _ _ _
  | sellNft => exact .sellNft _ _ _
  | updateAsk id d a ha hc => exact .updateAsk _ _ _ (by rw [hmore.asks]; exact ha) hc
  | resting _ _ _ hb => cases m <;> first | exact hm.elim | exact hb.elim
  | _ => exact hm.elim

theorem apart_shares {ctx : Ctx} {s : State} {S : Sell} (hA : Apart ctx.q s S) {c : Config} (hcf : s.config = c) {a : Ask}
    {mb : MatchingBid} (hc : S.coll = a.collection) (hpt : S.payTo = a.assetRecipient) (hsf : S.finder = a.details.finder)
    (hin : (∃ id b, s.bids.get? id = some b ∧ mb = .bid b) ∨ ∃ id b, s.cbids.get? id = some b ∧ mb = .cbid b) :
    ∀ f ∈ saleShares ctx c a mb false, f.1 ≠ a.assetRecipient := by
  subst hcf
  have hmf : mb.details.finder ≠ some S.payTo := by
    rcases hin with ⟨id, b, h, rfl⟩ | ⟨id, b, h, rfl⟩
    · exact hA.bids id b h
    · exact hA.cbids id b h
  intro f hf
  rw [← hpt]
  unfold saleShares feeShares royaltyShare at hf
  simp only [List.mem_append, List.mem_singleton, List.mem_map, Option.mem_toList] at hf
  rcases hf with ((rfl | ⟨x, hx, rfl⟩) | ⟨x, hx, rfl⟩) | hf
  · exact hA.manager
  · intro e
    apply hmf
    have hx' : mb.details.finder = some x := hx
    rw [hx']; exact congrArg some e
  · intro e
    apply hA.finder
    have hx' : a.details.finder = some x := hx
    rw [hsf, hx']; exact congrArg some e
  · rw [← hc] at hf
    split at hf
    · rename_i r hr
      rw [List.mem_singleton] at hf
      subst hf
      exact hA.royalty r hr
    · cases hf

theorem gets_pre {payTo fm : Addr} (hne : fm ≠ payTo) {funds : List Coin} {P : Prop} {pre : List Msg} (h : ∀ y ∈ pre, P ∧ y = .send fm funds)
    (dn : Denom) : gets payTo dn pre = 0 := by
  rw [gets_sends payTo fm dn (fun y hy => ⟨funds, (h y hy).2⟩), if_neg (Ne.symm hne)]

/-- With more bids open, a seller's call that sells sells at a price that is no lower. If it paid the seller at least 3 it
still goes through, and the seller is paid at most 3 less (each of the up to four fees is rounded up for itself). -/
theorem C141_partial (hlim : 1 ≤ p.maxLimit) (hinj : HashInj p) (hpf : PrefixFree p) (hns : NoSlash p) {s s2 : State}
    (hr : Reach p me NoWrap s) (hr2 : Reach p me NoWrap s2) (hmore : MoreBids s s2) (hfit : BidsFit s2) {ctx : Ctx} {sender : Addr}
    {funds : List Coin} {m : Exec} {s' : State} {msgs : List Msg} (hself : ctx.self = me) (hm : AskCall m)
    (hx : execute p ctx sender funds m s = .ok (s', msgs)) (ht : Trades m s' me msgs) {S : Sell} (hS : SellBy s sender m S)
    (hA : Apart ctx.q s2 S) (h3 : 3 ≤ gets S.payTo S.limit.denom msgs) :
    ∃ s2' msgs2 B B2, execute p ctx sender funds m s2 = .ok (s2', msgs2) ∧ BuyBy s sender m B ∧ BuyBy s2 sender m B2 ∧
      Nonempty (Sale ctx.q funds s s' m msgs S B) ∧ Nonempty (Sale ctx.q funds s2 s2' m msgs2 S B2) ∧
      B.limit.denom = B2.limit.denom ∧ B.limit.amount ≤ B2.limit.amount ∧
      ∀ dn, gets S.payTo dn msgs ≤ gets S.payTo dn msgs2 + 3 := by
  obtain ⟨y⟩ := ask_sale hr hself hm hx ht hS
  obtain ⟨mb2, hmb2, d1, d2, hle, hin2⟩ := match_more hlim hmore y.hmb
  have hw := Spec.Reach.wf hr
  have hw2 := Spec.Reach.wf hr2
  have hin := match_in hlim y.hmb
  have hpos : 0 < y.mb.details.price.amount := by
    rcases hin with ⟨id, b, h, e⟩ | ⟨id, b, h, e⟩
    · rw [e]; exact (hw.bid h).2.2
    · rw [e]; exact (hw.cbid h).2.2
  have hin' : (∃ id b, s2.bids.get? id = some b ∧ y.mb = .bid b) ∨ ∃ id b, s2.cbids.get? id = some b ∧ y.mb = .cbid b := by
    rcases hin with ⟨id, b, h, e⟩ | ⟨id, b, h, e⟩
    · exact Or.inl ⟨id, b, hmore.bids _ _ h, e⟩
    · exact Or.inr ⟨id, b, hmore.cbids _ _ h, e⟩
  have hfit2 : mb2.details.price.amount < 2^128 := by
    rcases hin2 with ⟨id, b, h, rfl⟩ | ⟨id, b, h, rfl⟩
    · exact hfit.bids id b h
    · exact hfit.cbids id b h
  have g1 := parts_gets hw y.x (apart_shares hA hmore.config y.hc y.hpt y.hsf hin')
  rw [← y.hpt] at g1
  have hfm : s.config.feeManager ≠ S.payTo := by
    rw [← hmore.config]; exact hA.manager
  have gm : ∀ dn, gets S.payTo dn msgs = if dn = y.mb.details.price.denom then
      y.mb.details.price.amount - charged y.mb.details.price.amount (saleShares ctx s.config y.a y.mb false) else 0 := by
    intro dn
    refine (congrArg (gets S.payTo dn) y.hmsgs).trans ?_
    rw [gets_append, gets_pre hfm y.hpre, Nat.zero_add]
    exact g1 dn
  obtain ⟨hch, _⟩ := split_charged (parts_split hw y.x)
  have hch : charged y.mb.details.price.amount (saleShares ctx s.config y.a y.mb false) ≤ y.mb.details.price.amount := hch
  have hcm := charged_more (fs2 := saleShares ctx s.config y.a mb2 false) hle hpos
    (saleShares_sum hw.cfg.2 y.a y.mb mb2 false) (saleShares_len _ _ _ _ _) hch
  have hld : S.limit.denom = y.mb.details.price.denom := by rw [y.hl]; exact d1.symm
  rw [gm, if_pos hld] at h3
  obtain ⟨x2⟩ := parts_other hw.cfg y.x hfit2 (by omega)
  rw [← hmore.config] at x2
  have ex2 := y.other hmore hmb2 x2
  obtain ⟨S1, B1, t1⟩ := trade_main hr hlim hself hx ht
  obtain rfl := sellBy_det hm hS t1.sell
  have hS2 := sellBy_more hmore hm hS
  obtain ⟨S2, B2, t2⟩ := y.traded hlim hm hr2 hmore hS2 hmb2 x2
  obtain rfl := sellBy_det hm hS2 t2.sell
  refine ⟨_, _, B1, B2, ex2, t1.buy, t2.buy, t1.sale, t2.sale, t1.limit.1.symm.trans t2.limit.1, ?_, ?_⟩
  · obtain ⟨b1, b2⟩ := t2.best hm
    obtain ⟨c1, c2⟩ := t1.same hns hinj hpf
    cases t1.buy with
    | restBid m id b _ hb => exact (b1 id b (hmore.bids _ _ hb) c1.symm (c2 _ rfl) t1.limit.1.symm).1
    | restCBid m id b _ hb => exact b2 id b (hmore.cbids _ _ hb) c1.symm t1.limit.1.symm
    | _ => exact hm.elim
  · intro dn
    have g2 := parts_gets hw2 x2 (apart_shares hA rfl y.hc y.hpt y.hsf hin2) dn
    rw [← y.hpt] at g2
    have hpre2 : gets S.payTo dn y.pre = 0 := gets_pre hfm y.hpre dn
    rw [gm dn, gets_append, hpre2, Nat.zero_add, g2]
    have e1 : (saleTerms y.a mb2 false).1 = mb2.details.price := rfl
    rw [e1, d2, d1, hmore.config]
    split
    · omega
    · exact Nat.zero_le _

/-! ### C142 -/

theorem nbSub_less : ∀ {cs left : List Coin} {c c' : Coin}, nbSub cs c = .ok left → c'.denom = c.denom → c'.amount ≤ c.amount →
    ∃ left', nbSub cs c' = .ok left'
  | [], _, _, _, h, _, _ => by cases h
  | x :: t, left, c, c', h, hd, ha => by
    unfold nbSub at h ⊢
    rw [hd]
    by_cases e : x.denom = c.denom
    · rw [if_pos e] at h ⊢
      rw [bind_ok] at h
      obtain ⟨r, hr, _⟩ := h
      have : c.amount ≤ x.amount := by
        unfold subChk at hr
        split at hr
        · assumption
        · cases hr
      rw [subChk_le (by omega)]
      exact ⟨_, rfl⟩
    · rw [if_neg e] at h ⊢
      rw [bind_ok] at h
      obtain ⟨r, hr, _⟩ := h
      obtain ⟨l, hl⟩ := nbSub_less hr hd ha
      rw [hl]
      exact ⟨_, rfl⟩

/-- Every open listing of the collection within the limit can be settled with the buyer of `B`. -/
def Spec.AllSettle (p : Params) (q : Queries) (s : State) (B : Buy) : Prop :=
  ∀ id a, s.asks.get? id = some a → a.collection = B.coll → a.details.price.denom = B.limit.denom →
    a.details.price.amount ≤ B.limit.amount → ∃ pays, Settles p q s.config a.collection a.details.price
      (a.details.recipient.getD a.creator) a.details.finder B.finder pays

theorem cbidMatch_total {b : CBid} {s : State} {r : Option Ask} (h : b.matchWithAsk p s = .ok r) (s2 : State) :
    ∃ r2, b.matchWithAsk p s2 = .ok r2 := by
  unfold CBid.matchWithAsk at h ⊢
  rw [bind_ok] at h
  obtain ⟨n, hn, _⟩ := h
  rw [hn]
  exact ⟨_, rfl⟩

/-- What `SetCollectionBid`, `BuyCollectionNft` and `UpdateCollectionBid` do after their checks. -/
theorem coll_tail (hlim : 1 ≤ p.maxLimit) {ctx : Ctx} {s s2 : State} (hw2 : WF p s2) (hasks : ∀ id a, s.asks.get? id = some a → s2.asks.get? id = some a)
    {b : CBid} {r : Option Ask} (hm : b.matchWithAsk p s = .ok r) {fn left : List Coin}
    (hl : nbSub fn ((r.map (fun a => a.details.price)).getD b.details.price) = .ok left)
    (hset : ∀ id a, s2.asks.get? id = some a → a.collection = b.collection → a.details.price.denom = b.details.price.denom →
      a.details.price.amount ≤ b.details.price.amount → ∃ pays, Settles p ctx.q s2.config a.collection a.details.price
        (a.details.recipient.getD a.creator) a.details.finder b.details.finder pays) :
    (r = none ∧ b.matchWithAsk p s2 = .ok none) ∨
    ∃ a2 left2, b.matchWithAsk p s2 = .ok (some a2) ∧ nbSub fn a2.details.price = .ok left2 ∧
      ∀ t : State, t.config = s2.config → ∃ z, finalizeSale p ctx t a2 t.config (.cbid b) true [] = .ok z := by
  obtain ⟨r2, h2⟩ := cbidMatch_total hm s2
  cases r2 with
  | none =>
    left
    refine ⟨?_, h2⟩
    cases r with
    | none => rfl
    | some a =>
      obtain ⟨⟨id, e1⟩, e2, e3, e4, _⟩ := cbidMatch_some hlim hm
      have := cbidMatch_none hlim h2 id a (hasks _ _ e1) e2 e3
      omega
  | some a2 =>
    right
    obtain ⟨⟨id2, f1⟩, f2, f3, f4, f5⟩ := cbidMatch_some hlim h2
    have hless : ∃ left2, nbSub fn a2.details.price = .ok left2 := by
      cases r with
      | none => exact nbSub_less hl f3 f4
      | some a =>
        obtain ⟨⟨id, e1⟩, e2, e3, e4, _⟩ := cbidMatch_some hlim hm
        exact nbSub_less hl (f3.trans e3.symm) (f5 id a (hasks _ _ e1) e2 e3)
    obtain ⟨left2, hl2⟩ := hless
    refine ⟨a2, left2, h2, hl2, fun t ht => ?_⟩
    obtain ⟨pays, hp⟩ := hset id2 a2 f1 f2 f3 f4
    exact finalize_succeeds hw2 ht (mb := .cbid b) (abb := true) hp []

theorem bump_match (b : CBid) (s : State) (n : Nat) : b.matchWithAsk p { s with nonce := n } = b.matchWithAsk p s := rfl

theorem nextNonce_more {s s2 : State} (h : s2.nonce = s.nonce) : nextNonce s2 = nextNonce s := by
  unfold nextNonce; rw [h]

/-- With more listings open, a call for any token of the collection that was accepted is accepted too, if every listing
within its limit can be settled. -/
theorem C142_partial (hlim : 1 ≤ p.maxLimit) {s s2 : State}
    (hr2 : Reach p me NoWrap s2) (hmore : MoreAsks s s2) {ctx : Ctx} {sender : Addr} {funds : List Coin} {m : Exec} {s' : State}
    {msgs : List Msg} (hm : CollCall m) (hx : execute p ctx sender funds m s = .ok (s', msgs))
    (hset : ∀ B, BuyBy s sender m B → AllSettle p ctx.q s2 B) :
    ∃ s2' msgs2, execute p ctx sender funds m s2 = .ok (s2', msgs2) := by
  have hw2 := Spec.Reach.wf hr2
  have hnn := nextNonce_more hmore.nonce
  cases execute_eff hx with
  | restCBid coll d fn left hv hd htr hpr hn hma hl hnew =>
    have hset' := hset _ (.setCBid coll d)
    rcases coll_tail (ctx := ctx) hlim hw2 hmore.asks hma hl hset' with ⟨_, h2⟩ | ⟨a2, left2, h2, hl2, hfin⟩
    · refine ⟨{ s2 with nonce := nextNonce s, cbids := (fun b : CBid => s2.cbids.insert b.id b) (CBid.new p sender coll d ctx.height (nextNonce s)) },
        refund sender left [], ?_⟩
      simp only [execute, executeSetCollectionBid, bind_ok, addrValidate_ok, strToAddr_ok, onlyValidPrice_ok, hnn, bump_match]
      refine ⟨coll, ⟨hv, rfl⟩, d, ⟨hd, rfl⟩, (), htr, (), priceOk_more hmore.config hmore.denoms hpr, fn, hn, none, h2, ?_⟩
      simp only [Bool.false_eq_true, if_false, bind_ok, ensure_ok, takePrice_ok]
      refine ⟨left, hl, (), ?_, rfl⟩
      rw [hmore.cbids]; exact hnew
    · obtain ⟨z, hz⟩ := hfin { s2 with nonce := nextNonce s } rfl
      refine ⟨z.1, refund sender left2 z.2, ?_⟩
      simp only [execute, executeSetCollectionBid, bind_ok, addrValidate_ok, strToAddr_ok, onlyValidPrice_ok, hnn, bump_match]
      refine ⟨coll, ⟨hv, rfl⟩, d, ⟨hd, rfl⟩, (), htr, (), priceOk_more hmore.config hmore.denoms hpr, fn, hn, some a2, h2, ?_⟩
      simp only [bind_ok, takePrice_ok]
      exact ⟨left2, hl2, z, hz, rfl⟩
  | buyCBid m coll d fn left a hm' hv hd htr hpr hn ha hl x =>
    have hset' : ∀ id a, s2.asks.get? id = some a → a.collection = coll → a.details.price.denom = d.price.denom →
      a.details.price.amount ≤ d.price.amount → ∃ pays, Settles p ctx.q s2.config a.collection a.details.price
        (a.details.recipient.getD a.creator) a.details.finder d.finder pays := by
      rcases hm' with rfl | rfl
      · exact hset _ (.setCBid coll d)
      · exact hset _ (.buyCollection coll d)
    rcases coll_tail (ctx := ctx) hlim hw2 hmore.asks ha hl hset' with ⟨h0, _⟩ | ⟨a2, left2, h2, hl2, hfin⟩
    · cases h0
    · obtain ⟨z, hz⟩ := hfin { s2 with nonce := nextNonce s } rfl
      refine ⟨z.1, refund sender left2 z.2, ?_⟩
      rcases hm' with rfl | rfl
      all_goals
        simp only [execute, executeSetCollectionBid, bind_ok, addrValidate_ok, strToAddr_ok, onlyValidPrice_ok, hnn, bump_match]
        refine ⟨coll, ⟨hv, rfl⟩, d, ⟨hd, rfl⟩, (), htr, (), priceOk_more hmore.config hmore.denoms hpr, fn, hn, some a2, h2, ?_⟩
        simp only [bind_ok, takePrice_ok]
        exact ⟨left2, hl2, z, hz, rfl⟩
  | updCBid id d b fn fa left hd hb hcr hpr hn hadd hma hl =>
    have hset' := hset _ (.updateCBid id d b hb hcr.symm)
    rcases coll_tail (ctx := ctx) hlim hw2 hmore.asks hma hl hset' with ⟨_, h2⟩ | ⟨a2, left2, h2, hl2, hfin⟩
    · refine ⟨{ s2 with cbids := s2.cbids.insert b.id { b with details := d } }, refund sender left [], ?_⟩
      simp only [execute, executeUpdateCollectionBid, bind_ok, strToAddr_ok, onlyValidPrice_ok, orErr_ok, ensure_ok]
      refine ⟨d, ⟨hd, rfl⟩, b, by rw [hmore.cbids]; exact hb, (), hcr, (), priceOk_more hmore.config hmore.denoms hpr, fn, hn, fa, hadd,
        none, h2, ?_⟩
      simp only [bind_ok, takePrice_ok]
      exact ⟨left, hl, rfl⟩
    · obtain ⟨z, hz⟩ := hfin s2 rfl
      refine ⟨z.1, refund sender left2 z.2, ?_⟩
      simp only [execute, executeUpdateCollectionBid, bind_ok, strToAddr_ok, onlyValidPrice_ok, orErr_ok, ensure_ok]
      refine ⟨d, ⟨hd, rfl⟩, b, by rw [hmore.cbids]; exact hb, (), hcr, (), priceOk_more hmore.config hmore.denoms hpr, fn, hn, fa, hadd,
        some a2, h2, ?_⟩
      simp only [bind_ok, takePrice_ok]
      exact ⟨left2, hl2, z, hz, rfl⟩
  | updCBuy id d b a fn fa left hd hb hcr hpr hn hadd ha hl x =>
    have hset' := hset _ (.updateCBid id d b hb hcr.symm)
    rcases coll_tail (ctx := ctx) hlim hw2 hmore.asks ha hl hset' with ⟨h0, _⟩ | ⟨a2, left2, h2, hl2, hfin⟩
    · cases h0
    · obtain ⟨z, hz⟩ := hfin s2 rfl
      refine ⟨z.1, refund sender left2 z.2, ?_⟩
      simp only [execute, executeUpdateCollectionBid, bind_ok, strToAddr_ok, onlyValidPrice_ok, orErr_ok, ensure_ok]
      refine ⟨d, ⟨hd, rfl⟩, b, by rw [hmore.cbids]; exact hb, (), hcr, (), priceOk_more hmore.config hmore.denoms hpr, fn, hn, fa, hadd,
        some a2, h2, ?_⟩
      simp only [bind_ok, takePrice_ok]
      exact ⟨left2, hl2, z, hz, rfl⟩
  | sellAsk m coll tok d pay mb hm' => rcases hm' with rfl | rfl <;> exact hm.elim
  | buyBid m coll tok d fn left a hm' => rcases hm' with rfl | rfl <;> exact hm.elim
  | _ => exact hm.elim

/-- If it traded, and is accepted with more listings open, it trades again, at a price that is no higher. -/
theorem C142_partial_price (hlim : 1 ≤ p.maxLimit) (hinj : HashInj p) (hpf : PrefixFree p) (hns : NoSlash p) {s s2 : State}
    (hr : Reach p me NoWrap s) (hr2 : Reach p me NoWrap s2) (hmore : MoreAsks s s2) {ctx : Ctx} {sender : Addr} {funds : List Coin}
    {m : Exec} {s' s2' : State} {msgs msgs2 : List Msg} (hself : ctx.self = me) (hm : CollCall m)
    (hx : execute p ctx sender funds m s = .ok (s', msgs)) (ht : Trades m s' me msgs)
    (hx2 : execute p ctx sender funds m s2 = .ok (s2', msgs2)) :
    ∃ S S2 B B2, SellBy s sender m S ∧ SellBy s2 sender m S2 ∧ BuyBy s sender m B ∧ BuyBy s2 sender m B2 ∧
      Nonempty (Sale ctx.q funds s s' m msgs S B) ∧ Nonempty (Sale ctx.q funds s2 s2' m msgs2 S2 B2) ∧
      S2.limit.denom = S.limit.denom ∧ S2.limit.amount ≤ S.limit.amount := by
  obtain ⟨S, B, t⟩ := trade_main hr hlim hself hx ht
  have hw2 := Spec.Reach.wf hr2
  obtain ⟨aid, a, ha, hSl, hSc⟩ : ∃ aid a, s.asks.get? aid = some a ∧ S.limit = a.details.price ∧ S.coll = a.collection := by
    cases t.sell with
    | resting m aid a _ ha => exact ⟨aid, a, ha, rfl, rfl⟩
    | _ => exact hm.elim
  have ha2 := hmore.asks _ _ ha
  have hsame := t.same hns hinj hpf
  have hBB : ∀ {B2}, BuyBy s2 sender m B2 → B2.coll = B.coll ∧ B2.limit = B.limit := by
    intro B2 h2
    have h1 := t.buy
    cases h1 with
    | setCBid => cases h2 with
      | setCBid => exact ⟨rfl, rfl⟩
      | restBid _ _ _ h => exact h.elim
      | restCBid _ _ _ h => exact h.elim
    | buyCollection => cases h2 with
      | buyCollection => exact ⟨rfl, rfl⟩
      | restBid _ _ _ h => exact h.elim
      | restCBid _ _ _ h => exact h.elim
    | updateCBid id d b hb => cases h2 with
      | updateCBid _ _ b' hb' => rw [hmore.cbids, hb] at hb'; cases hb'; exact ⟨rfl, rfl⟩
      | restBid _ _ _ h => exact h.elim
      | restCBid _ _ _ h => exact h.elim
    | restBid _ _ _ h => cases m <;> first | exact hm.elim | exact h.elim
    | restCBid _ _ _ h => cases m <;> first | exact hm.elim | exact h.elim
    | _ => exact hm.elim
  have fin : Traded p ctx.q s2 sender funds m s2' msgs2 → ∃ S S2 B B2, SellBy s sender m S ∧ SellBy s2 sender m S2 ∧ BuyBy s sender m B ∧ BuyBy s2 sender m B2 ∧
      Nonempty (Sale ctx.q funds s s' m msgs S B) ∧ Nonempty (Sale ctx.q funds s2 s2' m msgs2 S2 B2) ∧
      S2.limit.denom = S.limit.denom ∧ S2.limit.amount ≤ S.limit.amount := by
    rintro ⟨S2, B2, t2⟩
    obtain ⟨e1, e2⟩ := hBB t2.buy
    refine ⟨S, S2, B, B2, t.sell, t2.sell, t.buy, t2.buy, t.sale, t2.sale, ?_, ?_⟩
    · rw [t2.limit.1, e2, t.limit.1]
    · rw [hSl]
      apply t2.cheap hm aid a ha2
      · rw [e1, ← hsame.1, hSc]
      · rw [e2, ← t.limit.1, hSl]
  have noRest : ∀ {b : CBid}, b.collection = B.coll → b.details.price = B.limit → b.matchWithAsk p s2 = .ok none → False := by
    intro b h1 h2 h
    have := cbidMatch_none hlim h aid a ha2 (by rw [h1, ← hsame.1, hSc]) (by rw [h2, ← t.limit.1, hSl])
    have := t.limit.2
    rw [hSl] at this
    rw [h2] at *
    omega
  rcases eff_trade hw2 hlim (execute_eff hx2) with h | ⟨id, a, h, _⟩ | ⟨_, _, _, _, _, _, h, _⟩ | h
  · exfalso
    have e := execute_eff hx2
    have hnft : ∀ {a : Ask} {mb : MatchingBid} (x : SaleParts p ctx a s2.config mb true) (left : List Coin),
        Msg.nft a.collection a.tokenId mb.recipient ∈ refund sender left x.msgs := by
      intro a mb x left
      obtain ⟨post, h1, _⟩ := refund_eq sender left x.msgs
      rw [h1]
      simp [SaleParts.msgs, transferNft]
    cases e with
    | restCBid coll d fn left hv hd htr hpr hn hma hl hnew =>
      obtain ⟨e1, e2⟩ := hBB (.setCBid coll d)
      exact noRest e1 e2 hma
    | updCBid id d b fn fa left hd hb hcr hpr hn hadd hma hl =>
      obtain ⟨e1, e2⟩ := hBB (.updateCBid id d b hb hcr.symm)
      exact noRest (b := { b with details := d }) e1 e2 hma
    | buyCBid m coll d fn left a hm' hv hd htr hpr hn ha hl x => exact h _ _ _ (hnft x left)
    | updCBuy id d b a fn fa left hd hb hcr hpr hn hadd ha hl x => exact h _ _ _ (hnft x left)
    | sellAsk m coll tok d pay mb hm' => rcases hm' with rfl | rfl <;> exact hm.elim
    | buyBid m coll tok d fn left a hm' => rcases hm' with rfl | rfl <;> exact hm.elim
    | _ => exact hm.elim
  · subst h; exact hm.elim
  · subst h; exact hm.elim
  · exact fin h

/-- A listing whose price does not cover the fees. -/
def Spec.Dust (q : Queries) (s : State) (a : Ask) : Prop :=
  ∀ f, a.details.price.amount < charged a.details.price.amount (feeShares s.config a.details.finder f ++ royaltyShare q s.config a.collection)

/-- As long as the cheapest listing of a collection in some denom does not cover the fees, every call for any token of the
collection in that denom with a limit at or above its price fails, whoever makes it and whatever is attached. -/
theorem C142_partial_blocked (hlim : 1 ≤ p.maxLimit) {s : State} (hr : Reach p me NoWrap s)
    {ctx : Ctx} {id : Bytes} {a : Ask} (ha : s.asks.get? id = some a)
    (hcheap : ∀ id' a', s.asks.get? id' = some a' → a'.collection = a.collection → a'.details.price.denom = a.details.price.denom →
      a'.details.price.amount ≤ a.details.price.amount → Dust ctx.q s a')
    {sender : Addr} {funds : List Coin} {m : Exec} (hm : CollCall m) {B : Buy} (hB : BuyBy s sender m B) (hc : B.coll = a.collection)
    (hd : B.limit.denom = a.details.price.denom) (hl : a.details.price.amount ≤ B.limit.amount) :
    ∀ r, execute p ctx sender funds m s ≠ .ok r := by
  rintro ⟨s', msgs⟩ hx
  have hw := Spec.Reach.wf hr
  have noRest : ∀ {b : CBid}, b.collection = B.coll → b.details.price = B.limit → b.matchWithAsk p s = .ok none → False := by
    intro b h1 h2 h
    have := cbidMatch_none hlim h id a ha (by rw [h1, hc]) (by rw [h2, hd])
    rw [h2] at this
    omega
  have noSale : ∀ {b : CBid} {a' : Ask}, b.collection = B.coll → b.details.price = B.limit → b.matchWithAsk p s = .ok (some a') →
      SaleParts p ctx a' s.config (.cbid b) true → False := by
    intro b a' h1 h2 h x
    obtain ⟨⟨id', e1⟩, e2, e3, e4, e5⟩ := cbidMatch_some hlim h
    have e6 := e5 id a ha (by rw [h1, hc]) (by rw [h2, hd])
    have := hcheap id' a' e1 (by rw [e2, h1, hc]) (by rw [e3, h2, hd]) e6 b.details.finder
    have h4 := (split_charged (parts_split hw x)).1
    have h5 : charged a'.details.price.amount (feeShares s.config a'.details.finder b.details.finder ++
      royaltyShare ctx.q s.config a'.collection) ≤ a'.details.price.amount := h4
    omega
  have hBB : ∀ {B2}, BuyBy s sender m B2 → B2.coll = B.coll ∧ B2.limit = B.limit := by
    intro B2 h2
    cases hB with
    | setCBid => cases h2 with
      | setCBid => exact ⟨rfl, rfl⟩
      | restBid _ _ _ h => exact h.elim
      | restCBid _ _ _ h => exact h.elim
    | buyCollection => cases h2 with
      | buyCollection => exact ⟨rfl, rfl⟩
      | restBid _ _ _ h => exact h.elim
      | restCBid _ _ _ h => exact h.elim
    | updateCBid id d b hb => cases h2 with
      | updateCBid _ _ b' hb' => rw [hb] at hb'; cases hb'; exact ⟨rfl, rfl⟩
      | restBid _ _ _ h => exact h.elim
      | restCBid _ _ _ h => exact h.elim
    | restBid _ _ _ h => cases m <;> first | exact hm.elim | exact h.elim
    | restCBid _ _ _ h => cases m <;> first | exact hm.elim | exact h.elim
    | _ => exact hm.elim
  cases execute_eff hx with
  | restCBid coll d fn left hv hd htr hpr hn hma hl hnew =>
    obtain ⟨e1, e2⟩ := hBB (.setCBid coll d)
    exact noRest e1 e2 hma
  | updCBid id d b fn fa left hd hb hcr hpr hn hadd hma hl =>
    obtain ⟨e1, e2⟩ := hBB (.updateCBid id d b hb hcr.symm)
    exact noRest (b := { b with details := d }) e1 e2 hma
  | buyCBid m coll d fn left a hm' hv hd htr hpr hn ha hl x =>
    rcases hm' with rfl | rfl
    · obtain ⟨e1, e2⟩ := hBB (.setCBid coll d)
      exact noSale e1 e2 ha x
    · obtain ⟨e1, e2⟩ := hBB (.buyCollection coll d)
      exact noSale e1 e2 ha x
  | updCBuy id d b a fn fa left hd hb hcr hpr hn hadd ha hl x =>
    obtain ⟨e1, e2⟩ := hBB (.updateCBid id d b hb hcr.symm)
    exact noSale (b := { b with details := d }) e1 e2 ha x
  | sellAsk m coll tok d pay mb hm' => rcases hm' with rfl | rfl <;> exact hm.elim
  | buyBid m coll tok d fn left a hm' => rcases hm' with rfl | rfl <;> exact hm.elim
  | _ => exact hm.elim

/-! ### Examples -/

/-- A bid that rests is one bid more. -/
theorem more_setBid {ctx : Ctx} {sender : Addr} {funds : List Coin} {coll tok : Bytes} {d : Details} {s s' : State} {msgs : List Msg}
    (hx : execute p ctx sender funds (.setBid coll tok d) s = .ok (s', msgs)) (hno : ∀ c t to, Msg.nft c t to ∉ msgs) : MoreBids s s' := by
  cases execute_eff hx with
  | restBid coll tok d fn left hv hd htr hpr hn hm hl hnew =>
    refine ⟨rfl, rfl, rfl, rfl, fun id b hb => ?_, fun _ _ h => h⟩
    simp only [AMap.get?_insert]
    split
    · rename_i e
      have e' : (Bid.new p sender coll tok d ctx.height (nextNonce s)).id = id := e
      rw [← e', hnew] at hb; cases hb
    · exact hb
  | buyBid m coll tok d fn left a hm' hv hd htr hpr hn ha hl x =>
    exfalso
    obtain ⟨post, h1, _⟩ := refund_eq sender left x.msgs
    exact hno _ _ _ (by rw [h1]; simp only [SaleParts.msgs, transferNft, List.mem_append, List.mem_singleton]; exact Or.inl (Or.inr rfl))
  | sellAsk m coll tok d pay mb hm' => rcases hm' with h | h <;> cases h
  | buyCBid m coll d fn left a hm' => rcases hm' with h | h <;> cases h

/-- A listing that rests is one listing more. -/
theorem more_setAsk {ctx : Ctx} {sender : Addr} {funds : List Coin} {coll tok : Bytes} {d : Details} {s s' : State} {msgs : List Msg}
    (hx : execute p ctx sender funds (.setAsk coll tok d) s = .ok (s', msgs)) (hrest : s'.asks.get? (askId p coll tok) ≠ none) :
    MoreAsks s s' := by
  cases execute_eff hx with
  | restAsk coll tok d pay hv hd hown htr hpr hf hpos hfee hm hnew =>
    refine ⟨rfl, rfl, rfl, rfl, fun id b hb => ?_⟩
    simp only [AMap.get?_insert]
    split
    · rename_i e
      rw [← e, hnew] at hb; cases hb
    · exact hb
  | sellAsk m coll' tok' d' pay mb hm' =>
    exfalso
    rcases hm' with h | h <;> cases h
    exact hrest afterSale_ask
  | buyBid m coll tok d fn left a hm' => rcases hm' with h | h <;> cases h
  | buyCBid m coll d fn left a hm' => rcases hm' with h | h <;> cases h

namespace Sample
/-- bob bids 100 on alice's token; then carol bids 101 -/
def dp1 : State := (run (ctx (some alice)) bob [⟨ust, 100⟩] (.setBid coll tok (det 100)) s1).1
def dp2 : State := (run (ctx (some alice)) carol [⟨ust, 101⟩] (.setBid coll tok (det 101)) dp1).1
theorem rdp1 : Reach P self NoWrap dp1 := next r1 (by decide +kernel) rfl (by decide) (by decide +kernel)
theorem rdp2 : Reach P self NoWrap dp2 := next rdp1 (by decide +kernel) rfl (by decide) (by decide +kernel)
theorem more12 : MoreBids dp1 dp2 :=
  more_setBid (s' := dp2) (msgs := (run (ctx (some alice)) carol [⟨ust, 101⟩] (.setBid coll tok (det 101)) dp1).2) (run_eq (c := ctx (some alice)) (sender := carol) (funds := [⟨ust, 101⟩]) (m := .setBid coll tok (det 101)) (s := dp1) (by decide +kernel))
    (by
      have : (run (ctx (some alice)) carol [⟨ust, 101⟩] (.setBid coll tok (det 101)) dp1).2 = [] := by decide +kernel
      rw [this]; simp)

theorem get_mem {K V : Type} [DecidableEq K] {m : AMap K V} {k : K} {v : V} (h : m.get? k = some v) : (k, v) ∈ m.l := by
  exact AMap.mem_iff.mpr h
theorem dp2_bids : ∀ id b, dp2.bids.get? id = some b → b.details.price.amount < 2^128 ∧ b.details.finder = none := by
  intro id b h
  have : ∀ e ∈ dp2.bids.l, e.2.details.price.amount < 2^128 ∧ e.2.details.finder = none := by decide +kernel
  exact this _ (get_mem h)
theorem dp2_cbids : ∀ id b, dp2.cbids.get? id = some b → False := by
  intro id b h
  have : dp2.cbids.l = [] := by decide +kernel
  have := this ▸ get_mem h
  cases this
theorem dp2_fit : BidsFit dp2 := ⟨fun id b h => (dp2_bids id b h).1, fun id b h => (dp2_cbids id b h).elim⟩

/-- alice sells for 50 or more -/
def dpSell : Exec := .sellNft coll tok (det 50)
def dpS : Sell := ⟨none, coll, tok, alice, ⟨ust, 50⟩, alice, none⟩
theorem dpS_by {s : State} : SellBy s alice dpSell dpS := .sellNft coll tok (det 50)
theorem dp_apart : Apart (ctx (some alice)).q dp2 dpS where
  manager := by decide +kernel
  royalty := by
    intro r h
    have : royaltyOf (ctx (some alice)).q dp2.config.royaltyRegistry dpS.coll = some ⟨artist, 5 * 10^16⟩ := by decide +kernel
    rw [this] at h; cases h; decide
  finder := by decide
  bids := by intro id b h; rw [(dp2_bids id b h).2]; simp
  cbids := fun id b h => (dp2_cbids id b h).elim
def dpR1 : State × List Msg := run (ctx (some alice)) alice [⟨ust, 5⟩] dpSell dp1
def dpR2 : State × List Msg := run (ctx (some alice)) alice [⟨ust, 5⟩] dpSell dp2
theorem dpR1_ok : execute P (ctx (some alice)) alice [⟨ust, 5⟩] dpSell dp1 = .ok (dpR1.1, dpR1.2) := run_eq (by decide +kernel)
theorem dpR2_ok : execute P (ctx (some alice)) alice [⟨ust, 5⟩] dpSell dp2 = .ok (dpR2.1, dpR2.2) := run_eq (by decide +kernel)
theorem dpR1_trades : Trades dpSell dpR1.1 self dpR1.2 :=
  ⟨coll, tok, bob, by decide +kernel, (by intro id h; cases h), (by rintro ⟨h, _⟩; revert h; decide)⟩
example := C141_partial (by decide) hashInj prefixFree noSlash rdp1 rdp2 more12 dp2_fit rfl (m := dpSell) trivial dpR1_ok dpR1_trades dpS_by dp_apart
  (by decide +kernel)
/-- the higher bid pays the seller less -/
theorem dp_less : gets alice ust dpR1.2 = 93 ∧ gets alice ust dpR2.2 = 92 := by decide +kernel

/-- alice lists the token for 100 (`s2`); then bob lists a second token for 1 -/
def dpc : Ctx := { ctx none with q := { q none none with ownerOf := fun _ t => if t = tok then some self else some bob } }
def dp3 : State := (run dpc bob [⟨ust, 5⟩] (.setAsk coll tok2 (det 1)) s2).1
theorem rdp3 : Reach P self NoWrap dp3 := next r2 (by decide +kernel) rfl (by decide) (by decide +kernel)
theorem more23 : MoreAsks s2 dp3 :=
  more_setAsk (run_eq (c := dpc) (sender := bob) (funds := [⟨ust, 5⟩]) (m := .setAsk coll tok2 (det 1)) (s := s2) (by decide +kernel))
    (by decide +kernel)
/-- carol wants any token of the collection for up to 150 -/
def dpBuy : Exec := .buyCollectionNft coll (det 150)
def dpR3 : State × List Msg := run dpc carol [⟨ust, 150⟩] dpBuy s2
theorem dpR3_ok : execute P dpc carol [⟨ust, 150⟩] dpBuy s2 = .ok (dpR3.1, dpR3.2) := run_eq (by decide +kernel)
theorem dpR3_trades : Trades dpBuy dpR3.1 self dpR3.2 :=
  ⟨coll, tok, carol, by decide +kernel, (by intro id h; cases h), (by rintro ⟨h, _⟩; revert h; decide)⟩
theorem dp3_asks : ∀ id a, dp3.asks.get? id = some a → a.details.price.amount ≤ 1 → a = Ask.new P bob coll tok2 (det 1) := by
  intro id a h
  have : ∀ e ∈ dp3.asks.l, e.2.details.price.amount ≤ 1 → e.2 = Ask.new P bob coll tok2 (det 1) := by decide +kernel
  exact this _ (get_mem h)
theorem dp_dust : Dust dpc.q dp3 (Ask.new P bob coll tok2 (det 1)) := by
  intro f
  cases f with
  | none => decide +kernel
  | some x =>
    have : (feeShares dp3.config none (some x)).map Prod.snd = (feeShares dp3.config none (some [])).map Prod.snd := rfl
    show 1 < charged 1 (feeShares dp3.config none (some x) ++ royaltyShare dpc.q dp3.config coll)
    unfold charged
    rw [show (fun f : Addr × Nat => feeDue 1 f.2) = feeDue 1 ∘ Prod.snd from rfl, ← List.map_map, List.map_append, this]
    decide +kernel
example := C142_partial_blocked (by decide) rdp3 (ctx := dpc) (id := askId P coll tok2) (a := Ask.new P bob coll tok2 (det 1))
  (by decide +kernel) (fun id' a' h _ _ hle => by rw [dp3_asks id' a' h hle]; exact dp_dust) (m := dpBuy) (sender := carol) (funds := [⟨ust, 150⟩])
  trivial (.buyCollection coll (det 150)) rfl rfl (by decide)

/-- with a second listing at 80 all is well -/
def dp4 : State := (run dpc bob [⟨ust, 5⟩] (.setAsk coll tok2 (det 80)) s2).1
theorem rdp4 : Reach P self NoWrap dp4 := next r2 (by decide +kernel) rfl (by decide) (by decide +kernel)
theorem more24 : MoreAsks s2 dp4 :=
  more_setAsk (run_eq (c := dpc) (sender := bob) (funds := [⟨ust, 5⟩]) (m := .setAsk coll tok2 (det 80)) (s := s2) (by decide +kernel))
    (by decide +kernel)
theorem dp4_settles : ∀ B, BuyBy s2 carol dpBuy B → AllSettle P dpc.q dp4 B := by
  intro B hB
  cases hB with
  | buyCollection =>
    intro id a h _ _ _
    have key : ∀ e ∈ dp4.asks.l, e.2 = Ask.new P alice coll tok (det 100) ∨ e.2 = Ask.new P bob coll tok2 (det 80) := by decide +kernel
    have reg : ∀ c : Addr, dpc.q.registry dp4.config.royaltyRegistry c ≠ none := by intro c h; cases h
    have hrec : ∀ (c : Addr) i r, dpc.q.registry dp4.config.royaltyRegistry c = some (none, none) → dpc.q.collInfo c = some i →
        i.royalty = some r → P.valid r.recipient = true := by
      intro c i r _ h1 h2
      cases h1; cases h2; decide
    have h' : a = Ask.new P alice coll tok (det 100) ∨ a = Ask.new P bob coll tok2 (det 80) := key _ (get_mem h)
    rcases h' with rfl | rfl
    · exact ⟨[(feeMgr, 2), (artist, 5), (alice, 93)], by decide, reg _, hrec _, by decide +kernel⟩
    · exact ⟨[(feeMgr, 2), (artist, 4), (bob, 74)], by decide, reg _, hrec _, by decide +kernel⟩
  | restBid _ _ _ h => exact h.elim
  | restCBid _ _ _ h => exact h.elim
example := C142_partial (by decide) rdp4 more24 (ctx := dpc) (m := dpBuy) trivial dpR3_ok dp4_settles
def dpR4 : State × List Msg := run dpc carol [⟨ust, 150⟩] dpBuy dp4
theorem dpR4_ok : execute P dpc carol [⟨ust, 150⟩] dpBuy dp4 = .ok (dpR4.1, dpR4.2) := run_eq (by decide +kernel)
example := C142_partial_price (by decide) hashInj prefixFree noSlash r2 rdp4 more24 (ctx := dpc) rfl (m := dpBuy) trivial dpR3_ok dpR3_trades dpR4_ok
end Sample

theorem C141_violated : ¬ C141_statement := by
  intro h
  obtain ⟨s2', msgs2, hx, hle⟩ := h Sample.P Sample.self (by decide) Sample.hashInj Sample.prefixFree Sample.noSlash _ _ Sample.rdp1 Sample.rdp2
    Sample.more12 Sample.dp2_fit _ _ _ Sample.dpSell _ _ rfl trivial Sample.dpR1_ok Sample.dpR1_trades _ Sample.dpS_by Sample.dp_apart
  rw [Sample.dpR2_ok] at hx
  cases hx
  have h1 : gets Sample.alice Sample.ust Sample.dpR1.2 ≤ gets Sample.alice Sample.ust Sample.dpR2.2 := hle Sample.ust
  rw [Sample.dp_less.1, Sample.dp_less.2] at h1
  omega

theorem C142_violated : ¬ C142_statement := by
  intro h
  obtain ⟨s2', msgs2, hx⟩ := h Sample.P Sample.self (by decide) Sample.hashInj Sample.prefixFree Sample.noSlash _ _ Sample.r2 Sample.rdp3
    Sample.more23 Sample.dpc Sample.carol [⟨Sample.ust, 150⟩] Sample.dpBuy _ _ rfl trivial Sample.dpR3_ok
  have : Sample.ok Sample.dpc Sample.carol [⟨Sample.ust, 150⟩] Sample.dpBuy Sample.dp3 = false := by decide +kernel
  unfold Sample.ok at this
  rw [hx] at this
  cases this

end
end Verif.V2

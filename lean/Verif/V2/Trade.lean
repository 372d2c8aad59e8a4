/-
From the inversion of `execute` to the specification of sales. Helper file, no properties.
-/
import Verif.V2.FeeLemmas

namespace Verif.V2
open Verif Spec

section
variable {p : Params}

theorem feeDue_eq (a b : Nat) : feeDue a b = ceilDiv (a * b) ONE := by
  unfold feeDue ceilDiv ONE; rfl

attribute [local irreducible] feeDue

theorem feePayment_denom (d : Denom) (n : Nat) (f : Fee) : (feePayment d n f).funds.denom = d := by
  unfold feePayment; rfl

theorem dues_sum (price : Nat) : ∀ fs : List Fee,
    ((((fs.map (fun f => (f.recipient, f.share))).filter (fun f => decide (f.2 ≠ 0))).map
      (fun f => (f.1, feeDue price f.2))).map Prod.snd).sum = feeTotal price (activeFees fs)
  | [] => rfl
  | f :: fs => by
    have ih := dues_sum price fs
    unfold activeFees at ih ⊢
    by_cases h : f.share = 0
    · rw [List.map_cons, List.filter_cons_of_neg (by simp [h]), List.filter_cons_of_neg (by simp [h])]
      exact ih
    · rw [List.map_cons, List.filter_cons_of_pos (by simp [h]), List.filter_cons_of_pos (by simp [h])]
      rw [List.map_cons, List.map_cons, List.sum_cons, ih, feeTotal, feeDue_eq]

theorem dues_map (denom : Denom) (price : Nat) : ∀ fs : List Fee,
    ((activeFees fs).map (feePayment denom price)).map (fun x => (x.recipient, x.funds.amount)) =
    ((fs.map (fun f => (f.recipient, f.share))).filter (fun f => decide (f.2 ≠ 0))).map
      (fun f => (f.1, feeDue price f.2))
  | [] => rfl
  | f :: fs => by
    have ih := dues_map denom price fs
    unfold activeFees at ih ⊢
    by_cases h : f.share = 0
    · rw [List.map_cons, List.filter_cons_of_neg (by simp [h]), List.filter_cons_of_neg (by simp [h])]
      exact ih
    · rw [List.map_cons, List.filter_cons_of_pos (by simp [h]), List.filter_cons_of_pos (by simp [h])]
      rw [List.map_cons, List.map_cons, List.map_cons, ih, feeDue_eq]
      rfl

/-- `buildPayments` computes the specified split. -/
theorem buildPayments_split {sale : Coin} {seller : Addr} {fees : List Fee} {ps : List Payment}
    (h : buildPayments sale seller fees = .ok ps) :
    split sale.amount seller (fees.map (fun f => (f.recipient, f.share))) =
      some (ps.map (fun x => (x.recipient, x.funds.amount))) ∧ ∀ x ∈ ps, x.funds.denom = sale.denom := by
  obtain ⟨h1, h2⟩ := buildPayments_ok h
  have ht := dues_sum sale.amount fees
  rw [feeTotal_active] at ht
  constructor
  · unfold split
    simp only [ht]
    have e1 : ¬ sale.amount < feeTotal sale.amount fees := by omega
    rw [if_neg e1, h2, List.map_append, dues_map]
    clear h h2 ht e1
    generalize feeTotal sale.amount fees = n at h1 ⊢
    by_cases hz : n = sale.amount
    · have hz' : sale.amount - n = 0 := by omega
      rw [if_pos hz, if_pos hz', List.map_nil]
    · have hz' : ¬ sale.amount - n = 0 := by omega
      rw [if_neg hz, if_neg hz', List.map_cons, List.map_nil]
  · rw [h2]
    intro x hx
    rw [List.mem_append] at hx
    rcases hx with hx | hx
    · rw [List.mem_map] at hx
      obtain ⟨f, _, hx⟩ := hx
      rw [← hx, feePayment_denom]
    · split at hx
      · cases hx
      · rw [List.mem_singleton] at hx; rw [hx]

theorem payoutMsgs_eq {den : Denom} : ∀ {ps : List Payment}, (∀ x ∈ ps, x.funds.denom = den) →
    payoutMsgs ps = (ps.map (fun x => (x.recipient, x.funds.amount))).map
      (fun x => Msg.send x.1 [⟨den, x.2⟩])
  | [], _ => rfl
  | x :: xs, h => by
    have ih := payoutMsgs_eq (ps := xs) (fun y hy => h y (List.mem_cons_of_mem _ hy))
    have hx := h x List.mem_cons_self
    have : payoutMsgs (x :: xs) = .send x.recipient [x.funds] :: payoutMsgs xs := rfl
    rw [this, ih, ← hx]; rfl

theorem divide_sum {c : Config} {mk tk : Bool} {pf : ProtocolFees} (h : divideProtocolFees c mk tk = .ok pf) :
    pf.protocolFee + pf.makerReward + pf.takerReward = c.protocolFeeBps * 10^14 := by
  unfold divideProtocolFees at h
  simp only at h
  split at h
  case isTrue hz => cases h; unfold bps; simp only [Nat.add_zero]
  case isFalse hz =>
    simp only [bind_ok] at h
    obtain ⟨mk', hmk, tk', htk, h⟩ := h
    cases h
    have h1 : mk'.1 + mk'.2 = bps c.protocolFeeBps := by
      split at hmk
      · simp only [bind_ok, subChk_ok] at hmk
        obtain ⟨n, _, l, hl, hmk⟩ := hmk
        cases hmk; simp only; omega
      · cases hmk; simp
    have h2 : tk'.1 + tk'.2 = mk'.2 := by
      split at htk
      · simp only [bind_ok, subChk_ok] at htk
        obtain ⟨n, _, l, hl, htk⟩ := htk
        cases htk; simp only; omega
      · cases htk; simp
    unfold bps at h1
    simp only
    omega

theorem fetchOrSet_royalty {ctx : Ctx} {v : Bytes → Bool} {reg coll : Addr} {r : Option Royalty × List Msg}
    (h : fetchOrSetRoyalties ctx v reg coll = .ok r) : r.1 = royaltyOf ctx.q reg coll := by
  unfold fetchOrSetRoyalties at h
  rw [bind_ok] at h
  obtain ⟨e, he, h⟩ := h
  unfold fetchRoyaltyEntry at he
  unfold royaltyOf
  split at he
  · cases he
  case h_2 hq => cases he; cases h; rw [hq]
  case h_3 hq => cases he; cases h; rw [hq]
  case h_4 hq =>
    cases he
    rw [hq]
    simp only at h ⊢
    split at h
    case h_1 info hi =>
      rw [hi]
      simp only [Option.bind_some]
      split at h
      case h_1 hr => cases h; exact hr.symm
      case h_2 hr =>
        split at h
        · cases h; exact hr.symm
        · cases h
    case h_2 hi => cases h; rw [hi]; rfl

/-- A sale's messages in terms of the specification. -/
theorem mkSale {ctx : Ctx} {s s' : State} {a : Ask} {mb : MatchingBid} {abb : Bool} (hw : WF p s)
    (funds : List Coin) (m : Exec) (x : SaleParts p ctx a s.config mb abb) (S : Sell) (B : Buy) (pre post msgs : List Msg)
    (hm : msgs = pre ++ x.msgs ++ post) (habb : SellerCall m = !abb)
    (hp : priceOf m S B = (saleTerms a mb abb).1)
    (hc : S.coll = a.collection) (ht : S.tok = a.tokenId) (hpt : S.payTo = a.assetRecipient)
    (hsf : S.finder = a.details.finder) (hn : B.nftTo = mb.recipient) (hbf : B.finder = mb.details.finder)
    (hpre : ∀ y ∈ pre, Lists m = true ∧ y = .send s.config.feeManager funds)
    (hpost : ∀ m ∈ post, ∃ cs, m = .send B.who cs)
    (hback : if SellerCall m then post = []
      else ∀ d, paidOut d post + amountOf d [priceOf m S B] = amountOf d funds + amountOf d B.paid)
    (hask : ∀ id, S.ask = some id → s'.asks.get? id = none)
    (hbid : ∀ id, B.bid = some id → s'.bids.get? id = none)
    (hcbid : ∀ id, B.cbid = some id → s'.cbids.get? id = none) :
    Nonempty (Sale ctx.q funds s s' m msgs S B) := by
  obtain ⟨k1, k2⟩ := buildPayments_split x.hpay
  have hmk : makerOf m S B = (saleTerms a mb abb).2.1 := by
    unfold makerOf saleTerms
    rw [habb, hsf, hbf]; cases abb <;> rfl
  have htk : takerOf m S B = (saleTerms a mb abb).2.2 := by
    unfold takerOf saleTerms
    rw [habb, hsf, hbf]; cases abb <;> rfl
  refine ⟨⟨pre ++ x.roy.2, x.payments.map (fun x => (x.recipient, x.funds.amount)), post, ?_, ?_, hpost, hback, ?_,
    hask, hbid, hcbid⟩⟩
  · rw [hm]
    unfold SaleParts.msgs
    rw [payoutMsgs_eq k2, hc, ht, hn, hp]
    simp [transferNft]
  · intro m hm
    rw [List.mem_append] at hm
    rcases hm with hm | hm
    · exact Or.inl (hpre m hm)
    · right
      rcases fetchOrSet_msgs x.hroy with h | h
      · rw [h] at hm; cases hm
      · rw [h, List.mem_singleton] at hm; rw [hm, hc]
  · rw [hp, hpt, ← k1]
    apply split_congr
    rw [saleFees_spec hw.cfg.1 hw.cfg.2 x.hpf x.hfees, hmk, htk, hc]
    unfold royaltyShare
    rw [← fetchOrSet_royalty x.hroy]
    cases x.roy.1 <;> rfl

theorem refund_eq (sender : Addr) (left : List Coin) (ms : List Msg) :
    ∃ post, refund sender left ms = ms ++ post ∧ (∀ m ∈ post, ∃ cs, m = .send sender cs) ∧
      ∀ d, paidOut d post = amountOf d left := by
  unfold refund
  split
  case isTrue h => exact ⟨[], by simp, by simp, fun d => (nbIsEmpty_amountOf h d).symm⟩
  case isFalse =>
    exact ⟨[transferCoins left sender], rfl, by
      intro m hm; rw [List.mem_singleton] at hm; exact ⟨_, hm⟩, fun d => by simp [transferCoins, paidOut]⟩

theorem acceptor_cases {ctx : Ctx} {sender : Addr} {coll tok : Bytes} {d : Details} {s : State} {a : Ask}
    (h : acceptorAsk p ctx sender coll tok d s = .ok a) :
    (s.asks.get? (askId p coll tok) = some a ∧ a.creator = sender) ∨
    (s.asks.get? (askId p coll tok) = none ∧ onlyOwner ctx sender coll tok = .ok () ∧
      a = Ask.new p sender coll tok d) := by
  unfold acceptorAsk at h
  split at h
  case h_1 a' ha =>
    simp only [bind_ok, ensure_ok] at h
    obtain ⟨_, hc, h⟩ := h
    cases h
    exact Or.inl ⟨ha, hc.symm⟩
  case h_2 ha =>
    simp only [bind_ok] at h
    obtain ⟨_, ho, h⟩ := h
    cases h
    exact Or.inr ⟨ha, ho, rfl⟩

theorem onlyOwner_ok {ctx : Ctx} {sender coll tok : Bytes} {u : Unit} (h : onlyOwner ctx sender coll tok = .ok u) :
    ∀ o, ctx.q.ownerOf coll tok = some o → o = sender := by
  intro o ho
  unfold onlyOwner at h
  rw [ho] at h
  simp only at h
  split at h
  case isTrue e => exact e
  case isFalse => cases h

theorem askId_inj (hi : HashInj p) (hpf : PrefixFree p) {a b t u : Bytes} (ha : p.valid a = true)
    (hb : p.valid b = true) (h : askId p a t = askId p b u) : a = b ∧ t = u := by
  have h' : a ++ t = b ++ u := hi _ _ h
  rw [List.append_eq_append_iff] at h'
  rcases h' with ⟨x, h1, h2⟩ | ⟨x, h1, h2⟩
  · have := hpf b a x hb ha h1; subst this; simp_all
  · have := hpf a b x ha hb h1; subst this; simp_all

/-- The outcome of a trading call. -/
structure TradedWith (p : Params) (q : Queries) (s : State) (sender : Addr) (funds : List Coin) (m : Exec) (s' : State)
    (msgs : List Msg) (S : Sell) (B : Buy) : Prop where
  sell : SellBy s sender m S
  buy : BuyBy s sender m B
  sale : Nonempty (Sale q funds s s' m msgs S B)
  limit : S.limit.denom = B.limit.denom ∧ S.limit.amount ≤ B.limit.amount
  best : AskCall m → BestBid s S B
  cheap : CollCall m → Cheapest s S B
  same : NoSlash p → HashInj p → PrefixFree p → SameToken S B
  named : HashInj p → PrefixFree p → ∀ id tok d, m = .acceptCollectionBid id tok d → S.tok = tok
  asks : ∀ id, S.ask ≠ some id → s'.asks.get? id = s.asks.get? id ∨
    (s'.asks.get? id = none ∧
      id = askId p S.coll S.tok ∧ p.valid S.coll = true ∧ ∀ o, q.ownerOf S.coll S.tok = some o → o = sender)
  bids : HashInj p → NonceInv p s → NoWrap s → ∀ id, B.bid ≠ some id → s'.bids.get? id = s.bids.get? id
  cbids : HashInj p → NonceInv p s → NoWrap s → ∀ id, B.cbid ≠ some id → s'.cbids.get? id = s.cbids.get? id

def Traded (p : Params) (q : Queries) (s : State) (sender : Addr) (funds : List Coin) (m : Exec) (s' : State) (msgs : List Msg) : Prop :=
  ∃ S B, TradedWith p q s sender funds m s' msgs S B

theorem afterSale_ask {s : State} {a : Ask} {mb : MatchingBid} : (afterSale s a mb).asks.get? a.id = none := by
  cases mb <;> simp [afterSale, removeMatching]

theorem afterSale_bid {s : State} {a : Ask} {b : Bid} : (afterSale s a (.bid b)).bids.get? b.id = none := by
  simp [afterSale, removeMatching]

theorem afterSale_cbid {s : State} {a : Ask} {b : CBid} : (afterSale s a (.cbid b)).cbids.get? b.id = none := by
  simp [afterSale, removeMatching]

theorem afterSale_asks_ne {s : State} {a : Ask} {mb : MatchingBid} {id : Bytes} (h : a.id ≠ id) :
    (afterSale s a mb).asks.get? id = s.asks.get? id := by
  cases mb <;> simp [afterSale, removeMatching, AMap.get?_erase, h]

theorem afterSale_bids_ne {s : State} {a : Ask} {b : Bid} {id : Bytes} (h : b.id ≠ id) :
    (afterSale s a (.bid b)).bids.get? id = s.bids.get? id := by
  simp [afterSale, removeMatching, AMap.get?_erase, h]

theorem afterSale_cbids_ne {s : State} {a : Ask} {b : CBid} {id : Bytes} (h : b.id ≠ id) :
    (afterSale s a (.cbid b)).cbids.get? id = s.cbids.get? id := by
  simp [afterSale, removeMatching, AMap.get?_erase, h]

theorem afterSale_bids_new {s : State} {a : Ask} {b : Bid} (h : s.bids.get? b.id = none) (id : Bytes) :
    (afterSale (bump s) a (.bid b)).bids.get? id = s.bids.get? id := by
  by_cases e : b.id = id
  · subst e; rw [afterSale_bid, h]
  · exact afterSale_bids_ne e

theorem afterSale_cbids_new {s : State} {a : Ask} {b : CBid} (h : s.cbids.get? b.id = none) (id : Bytes) :
    (afterSale (bump s) a (.cbid b)).cbids.get? id = s.cbids.get? id := by
  by_cases e : b.id = id
  · subst e; rw [afterSale_cbid, h]
  · exact afterSale_cbids_ne e

theorem sends_msgs {ms : List Msg} (h : ∀ m ∈ ms, ∃ to cs, m = Msg.send to cs) {c t to : Bytes} :
    Msg.nft c t to ∉ ms := by
  intro hm
  obtain ⟨a, b, e⟩ := h _ hm
  cases e

theorem refund_nil_no_nft {sender : Addr} {left : List Coin} {c t to : Bytes} :
    Msg.nft c t to ∉ refund sender left [] := by
  obtain ⟨post, h1, h2, _⟩ := refund_eq sender left []
  rw [h1]
  simp only [List.nil_append]
  exact sends_msgs (fun m hm => ⟨sender, h2 m hm⟩)

/-- Selling into stored bids. -/
theorem traded_ask {ctx : Ctx} {sender : Addr} {funds : List Coin} {m : Exec} {s : State} {a : Ask} {mb : MatchingBid} {S : Sell}
    (hw : WF p s) (hlim : 1 ≤ p.maxLimit) (hm : AskCall m)
    (hS : SellBy s sender m S) (hmb : a.matchWithBid p s = some mb)
    (x : SaleParts p ctx a s.config mb false) (pre : List Msg)
    (hpre : ∀ y ∈ pre, Lists m = true ∧ y = .send s.config.feeManager funds)
    (hv : p.valid a.collection = true)
    (hc : S.coll = a.collection) (ht : S.tok = a.tokenId) (hpt : S.payTo = a.assetRecipient)
    (hl : S.limit = a.details.price)
    (hsf : S.finder = a.details.finder) (hask : S.ask = some a.id ∨ (S.ask = none ∧
      a.id = askId p S.coll S.tok ∧ ∀ o, ctx.q.ownerOf S.coll S.tok = some o → o = sender)) :
    Traded p ctx.q s sender funds m (afterSale s a mb) (pre ++ x.msgs) := by
  have hask' : ∀ id, S.ask = some id → (afterSale s a mb).asks.get? id = none := by
    intro id h
    rcases hask with e | e
    · rw [e] at h; cases h; exact afterSale_ask
    · rw [e.1] at h; cases h
  have hasks : ∀ id, S.ask ≠ some id → (afterSale s a mb).asks.get? id = s.asks.get? id ∨
      ((afterSale s a mb).asks.get? id = none ∧
        id = askId p S.coll S.tok ∧ p.valid S.coll = true ∧ ∀ o, ctx.q.ownerOf S.coll S.tok = some o → o = sender) := by
    intro id h
    by_cases e : a.id = id
    · rcases hask with e' | e'
      · rw [← e] at h; exact absurd e' h
      · rw [← e]; exact Or.inr ⟨afterSale_ask, e'.2.1, hc ▸ hv, e'.2.2⟩
    · exact Or.inl (afterSale_asks_ne e)
  have hcoll : ¬ CollCall m := by cases m <;> first | exact absurd hm (fun h => h) | exact fun h => h
  have hsc : SellerCall m = !false := by cases m <;> first | rfl | exact absurd hm (fun h => h)
  have hnam : HashInj p → PrefixFree p → ∀ id tok d, m = .acceptCollectionBid id tok d → S.tok = tok := by
    rintro _ _ id tok d rfl; exact absurd hm (fun h => h)
  have hprice : ∀ B, priceOf m S B = B.limit := by
    intro B; unfold priceOf; rw [hsc]; rfl
  cases mb with
  | bid b =>
    obtain ⟨⟨id, hb⟩, e2, e3, e4, e5, e6⟩ := matchWithBid_bid hlim hmb
    refine ⟨S, _, ⟨hS, .restBid m id b hm hb, ?_, ?_, ?_, fun h => absurd h hcoll, ?_, hnam, hasks, ?_, ?_⟩⟩
    · refine mkSale hw funds m x S _ pre [] _ (by simp) hsc ?_ hc ht hpt hsf rfl rfl hpre (by simp) (by rw [hsc]; rfl) hask' ?_ (by simp)
      · rw [hprice]; rfl
      · intro id' h; cases h; rw [← (hw.bid hb).1]; exact afterSale_bid
    · rw [hl]; exact ⟨e3.symm, e4⟩
    · intro _
      constructor
      · intro id' b' g1 g2 g3 g4
        refine ⟨e5 id' b' g1 (by rw [g2, g3, hc, ht]) (by rw [g4, hl]), by simp⟩
      · intro id' b' g1 g2 g4
        exact e6 id' b' g1 (by rw [g2, hc]) (by rw [g4, hl])
    · intro h1 h2 h3
      obtain ⟨k1, k2⟩ := indexStr_inj (h1 _ (hw.bid hb).2.1) (h1 _ hv) e2
      refine ⟨by rw [hc]; exact k1.symm, ?_⟩
      intro t htt; cases htt; rw [ht]; exact k2
    · intro _ _ _ id' h
      apply afterSale_bids_ne
      rw [(hw.bid hb).1]; intro e; exact h (by rw [e])
    · intro _ _ _ id' _; rfl
  | cbid b =>
    obtain ⟨⟨id, hb⟩, e2, e3, e4, e5, e6⟩ := matchWithBid_cbid hlim hmb
    refine ⟨S, _, ⟨hS, .restCBid m id b hm hb, ?_, ?_, ?_, fun h => absurd h hcoll, ?_, hnam, hasks, ?_, ?_⟩⟩
    · refine mkSale hw funds m x S _ pre [] _ (by simp) hsc ?_ hc ht hpt hsf rfl rfl hpre (by simp) (by rw [hsc]; rfl) hask' (by simp) ?_
      · rw [hprice]; rfl
      · intro id' h; cases h; rw [← (hw.cbid hb).1]; exact afterSale_cbid
    · rw [hl]; exact ⟨e3.symm, e4⟩
    · intro _
      constructor
      · intro id' b' g1 g2 g3 g4
        have := e5 id' b' g1 (by rw [g2, g3, hc, ht]) (by rw [g4, hl])
        exact ⟨Nat.le_of_lt this, fun _ => this⟩
      · intro id' b' g1 g2 g4
        exact e6 id' b' g1 (by rw [g2, hc]) (by rw [g4, hl])
    · intro h1 h2 h3
      exact ⟨by rw [hc]; exact e2.symm, by simp⟩
    · intro _ _ _ id' _; rfl
    · intro _ _ _ id' h
      apply afterSale_cbids_ne
      rw [(hw.cbid hb).1]; intro e; exact h (by rw [e])

/-- Buying a stored ask. -/
theorem traded_buy {ctx : Ctx} {sender : Addr} {funds : List Coin} {m : Exec} {s s0 : State} {aid : Bytes} {a : Ask}
    {mb : MatchingBid} {B : Buy} {left : List Coin}
    (hw : WF p s) (hm : BuyerCall m) (ha : s.asks.get? aid = some a)
    (hid : ∀ id d, m = .acceptAsk id d → id = aid)
    (hB : BuyBy s sender m B)
    (x : SaleParts p ctx a s.config mb true)
    (hn : B.nftTo = mb.recipient) (hbf : B.finder = mb.details.finder) (hwho : B.who = sender)
    (hback : ∀ d, amountOf d left + amountOf d [a.details.price] = amountOf d funds + amountOf d B.paid)
    (hbid : ∀ id, B.bid = some id → (afterSale s0 a mb).bids.get? id = none)
    (hcbid : ∀ id, B.cbid = some id → (afterSale s0 a mb).cbids.get? id = none)
    (hs0 : s0.asks = s.asks)
    (hl : a.details.price.denom = B.limit.denom ∧ a.details.price.amount ≤ B.limit.amount)
    (hcheap : CollCall m → ∀ id a', s.asks.get? id = some a' → a'.collection = B.coll →
      a'.details.price.denom = B.limit.denom → a.details.price.amount ≤ a'.details.price.amount)
    (hsame : HashInj p → PrefixFree p → a.collection = B.coll ∧ ∀ t, B.tok = some t → t = a.tokenId)
    (hbids : HashInj p → NonceInv p s → NoWrap s → ∀ id, B.bid ≠ some id →
      (afterSale s0 a mb).bids.get? id = s.bids.get? id)
    (hcbids : HashInj p → NonceInv p s → NoWrap s → ∀ id, B.cbid ≠ some id →
      (afterSale s0 a mb).cbids.get? id = s.cbids.get? id) :
    Traded p ctx.q s sender funds m (afterSale s0 a mb) (refund sender left x.msgs) := by
  obtain ⟨post, h1, h2, h3⟩ := refund_eq sender left x.msgs
  have hsc : SellerCall m = !true := by cases m <;> first | rfl | exact absurd hm (fun h => h)
  have hnask : ¬ AskCall m := by cases m <;> first | exact absurd hm (fun h => h) | exact fun h => h
  refine ⟨_, B, ⟨.resting m aid a hm ha hid, hB, ?_, hl, fun h => absurd h hnask, hcheap,
    fun _ => hsame, (fun _ _ id tok d e => by subst e; exact absurd hm (fun h => h)), ?_, hbids, hcbids⟩⟩
  · refine mkSale hw funds m x _ B [] post _ (by rw [h1]; simp) ?_ ?_ rfl rfl rfl rfl hn hbf (by simp) (fun m hm => hwho ▸ h2 m hm) ?_ ?_ hbid hcbid
    · exact hsc
    · unfold priceOf; rw [hsc]; rfl
    · rw [hsc]
      intro d
      have hpr : priceOf m ⟨some aid, a.collection, a.tokenId, a.creator, a.details.price,
        a.details.recipient.getD a.creator, a.details.finder⟩ B = a.details.price := by
        unfold priceOf; rw [hsc]; rfl
      rw [hpr, h3 d]
      exact hback d
    · intro id h; cases h; rw [← (hw.ask ha).1]; exact afterSale_ask
  · intro id h
    left
    rw [afterSale_asks_ne, hs0]
    rw [(hw.ask ha).1]; intro e; exact h (by rw [e])

theorem same_of_id {s : State} (hw : WF p s) {coll tok : Bytes} {a : Ask} (hv : p.valid coll = true)
    (ha : s.asks.get? (askId p coll tok) = some a) (hi : HashInj p) (hpf : PrefixFree p) :
    a.collection = coll ∧ tok = a.tokenId := by
  obtain ⟨_, h2, h3, _⟩ := hw.ask ha
  obtain ⟨e1, e2⟩ := askId_inj hi hpf hv h3 h2
  exact ⟨e1.symm, e2⟩

/-- Every successful call: no NFT moves, a listing is opened or withdrawn, or a trade happens. -/
theorem eff_cases {ctx : Ctx} {sender : Addr} {funds : List Coin} {m : Exec} {s s' : State} {msgs : List Msg}
    (hw : WF p s) (hlim : 1 ≤ p.maxLimit) (e : Eff p ctx sender funds s m s' msgs) :
    (∀ c t to, Msg.nft c t to ∉ msgs) ∨
    (∃ id a, m = .removeAsk id ∧ s.asks.get? id = some a ∧ a.creator = sender ∧
      msgs = [.nft a.collection a.tokenId (a.details.recipient.getD a.creator)] ∧
      s' = { s with asks := s.asks.erase id }) ∨
    (∃ c t d id a fee, m = .setAsk c t d ∧ s'.asks.get? id = some a ∧ a.collection = c ∧ a.tokenId = t ∧
      a.details = d ∧ msgs = [.send s.config.feeManager [fee], .nft c t ctx.self] ∧
      s' = { s with asks := s.asks.insert id a } ∧ s.asks.get? id = none) ∨
    Traded p ctx.q s sender funds m s' msgs := by
  have chg : ∀ {fn left : List Coin} {c : Coin}, nbNormalize funds = .ok fn → nbSub fn c = .ok left →
      ∀ d, amountOf d left + amountOf d [c] = amountOf d funds + amountOf d [] := by
    intro fn left c h1 h2 d
    have := (nbNormalize_ok h1).1 d
    have := (nbSub_ok h2).1 d
    rw [amountOf_singleton]
    simp only [amountOf]
    omega
  have chg' : ∀ {fn fa left : List Coin} {o c : Coin}, nbNormalize funds = .ok fn → nbAdd fn o = .ok fa →
      nbSub fa c = .ok left → ∀ d, amountOf d left + amountOf d [c] = amountOf d funds + amountOf d [o] := by
    intro fn fa left o c h1 h3 h2 d
    have := (nbNormalize_ok h1).1 d
    have := (nbAdd_ok h3).1 d
    have := (nbSub_ok h2).1 d
    rw [amountOf_singleton, amountOf_singleton]
    omega
  cases e with
  | config c hadm hv hc => left; simp
  | denom coll den hadm => left; simp
  | setFee fee hadm => left; simp
  | rmFee den hadm => left; simp
  | restAsk coll tok d pay hv hd hown htr hpr hf hpos hfee hm hnew =>
    right; right; left
    exact ⟨coll, tok, d, _, _, pay, rfl, AMap.get?_insert_self _ _ _, rfl, rfl, rfl, rfl, rfl, hnew⟩
  | sellAsk m coll tok d pay mb hm hv hd hown htr hpr hf hpos hfee hmb x =>
    right; right; right
    have hpre : ∀ m0, Lists m0 = true → ∀ y ∈ [Msg.send s.config.feeManager [pay]],
        Lists m0 = true ∧ y = .send s.config.feeManager funds := by
      intro m0 hm0 y hy; rw [List.mem_singleton] at hy; rw [hf]; exact ⟨hm0, hy⟩
    rcases hm with rfl | rfl
    · exact traded_ask hw hlim (by trivial) (.setAsk coll tok d) hmb x [_] (hpre _ rfl) hv rfl rfl rfl rfl rfl
        (Or.inr ⟨rfl, rfl, onlyOwner_ok hown⟩)
    · exact traded_ask hw hlim (by trivial) (.sellNft coll tok d) hmb x [_] (hpre _ rfl) hv rfl rfl rfl rfl rfl
        (Or.inr ⟨rfl, rfl, onlyOwner_ok hown⟩)
  | updAsk id d a hf hd ha hcr hpr hm => left; simp
  | updSell id d a mb hf hd ha hcr hpr hmb x =>
    right; right; right
    refine traded_ask (a := { a with details := d }) hw hlim (by trivial) (.updateAsk id d a ha hcr.symm) hmb x [] (by simp)
      (hw.ask ha).2.2.1 rfl rfl ?_ rfl rfl ?_
    · rw [hcr]; rfl
    · left; rw [(hw.ask ha).1]
  | rmAsk id a hf ha hcr =>
    right; left
    exact ⟨id, a, rfl, ha, hcr.symm, rfl, by rw [(hw.ask ha).1]⟩
  | accAsk id d a fn left hd hn ha hpr hl x =>
    right; right; right
    rw [hasCoins_single] at hpr
    exact traded_buy hw (by trivial) ha (fun id' d' h => by cases h; rfl) (.acceptAsk id d a ha) x rfl rfl rfl (chg hn hl) (by simp)
      (by simp) rfl ⟨hpr.1.symm, hpr.2⟩ (fun h => absurd h (fun h => h)) (fun _ _ => ⟨rfl, by simp⟩)
      (fun h1 h2 h3 id' _ => afterSale_bids_new (fresh_bid h2 h1 h3 _ _ _ _ _) id') (fun _ _ _ _ _ => rfl)
  | restBid coll tok d fn left hv hd htr hpr hn hm hl hnew => left; intro c t to; exact refund_nil_no_nft
  | buyBid m coll tok d fn left a hm hv hd htr hpr hn ha hl x =>
    right; right; right
    obtain ⟨h1, h2, h3⟩ := bidMatch_some ha
    have hsame := fun hi hpf => same_of_id hw hv h1 hi hpf
    rcases hm with rfl | rfl
    · exact traded_buy hw (by trivial) h1 (by simp) (.setBid coll tok d) x rfl rfl rfl (chg hn hl) (by simp) (by simp) rfl
        ⟨h2.symm, h3⟩ (fun h => absurd h (fun h => h))
        (fun hi hpf => ⟨(hsame hi hpf).1, by intro t e; cases e; exact (hsame hi hpf).2⟩)
        (fun h1 h2 h3 id' _ => afterSale_bids_new (fresh_bid h2 h1 h3 _ _ _ _ _) id') (fun _ _ _ _ _ => rfl)
    · exact traded_buy hw (by trivial) h1 (by simp) (.buySpecific coll tok d) x rfl rfl rfl (chg hn hl) (by simp) (by simp) rfl
        ⟨h2.symm, h3⟩ (fun h => absurd h (fun h => h))
        (fun hi hpf => ⟨(hsame hi hpf).1, by intro t e; cases e; exact (hsame hi hpf).2⟩)
        (fun h1 h2 h3 id' _ => afterSale_bids_new (fresh_bid h2 h1 h3 _ _ _ _ _) id') (fun _ _ _ _ _ => rfl)
  | updBid id d b fn fa left hd hb hcr hpr hn hadd hm hl => left; intro c t to; exact refund_nil_no_nft
  | updBuy id d b a fn fa left hd hb hcr hpr hn hadd ha hl x =>
    right; right; right
    obtain ⟨h1, h2, h3⟩ := bidMatch_some ha
    have hsame := fun hi hpf => same_of_id hw (hw.bid hb).2.1 h1 hi hpf
    have hid := (hw.bid hb).1
    refine traded_buy hw (by trivial) h1 (by simp) (.updateBid id d b hb hcr.symm) x ?_ rfl rfl (chg' hn hadd hl) ?_ (by simp) rfl
      ⟨h2.symm, h3⟩ (fun h => absurd h (fun h => h))
      (fun hi hpf => ⟨(hsame hi hpf).1, by intro t e; cases e; exact (hsame hi hpf).2⟩) ?_ (fun _ _ _ _ _ => rfl)
    · rw [hcr]; rfl
    · intro id' h; cases h
      have k := @afterSale_bid s a { b with details := d }
      rw [← hid]; exact k
    · intro _ _ _ id' h
      apply afterSale_bids_ne
      show b.id ≠ id'
      rw [hid]; intro e; exact h (by rw [e])
  | rmBid id b hf hb hcr => left; simp
  | accBid id d b a hd hb hpr ha x =>
    right; right; right
    rw [hasCoins_single] at hpr
    have hid := (hw.bid hb).1
    have hbids : ∀ id', some id ≠ some id' → (afterSale s a (.bid b)).bids.get? id' = s.bids.get? id' := by
      intro id' h
      apply afterSale_bids_ne
      rw [hid]; intro e; exact h (by rw [e])
    rcases acceptor_cases ha with ⟨h1, h2⟩ | ⟨h1, h2, rfl⟩
    · have hsame := fun hi hpf => same_of_id hw (hw.bid hb).2.1 h1 hi hpf
      refine ⟨_, _, ⟨.acceptBidListed id d _ a h1 h2, .acceptBid id d b hb, ?_, ⟨hpr.1.symm, hpr.2⟩,
        (fun h => absurd h (fun h => h)), (fun h => absurd h (fun h => h)),
        (fun _ hi hpf => ⟨(hsame hi hpf).1, by intro t e; cases e; exact (hsame hi hpf).2⟩),
        (fun _ _ _ _ _ h => by cases h), ?_,
        (fun _ _ _ => hbids), (fun _ _ _ _ _ => rfl)⟩⟩
      · refine mkSale hw funds _ x _ _ [] [] _ (by simp) rfl rfl rfl rfl ?_ rfl rfl rfl (by simp) (by simp) rfl ?_ ?_ (by simp)
        · rw [← h2]; rfl
        · intro id' h; cases h; rw [← (hw.ask h1).1]; exact afterSale_ask
        · intro id' h; cases h; rw [← hid]; exact afterSale_bid
      · intro id' h
        left; apply afterSale_asks_ne
        rw [(hw.ask h1).1]; intro e; exact h (by rw [e])
    · refine ⟨_, _, ⟨.acceptBid id d b hb, .acceptBid id d b hb, ?_, ⟨hpr.1.symm, hpr.2⟩,
        (fun h => absurd h (fun h => h)), (fun h => absurd h (fun h => h)),
        (fun _ hi hpf => ⟨rfl, by intro t e; cases e; rfl⟩), (fun _ _ _ _ _ h => by cases h), ?_,
        (fun _ _ _ => hbids), (fun _ _ _ _ _ => rfl)⟩⟩
      · refine mkSale hw funds _ x _ _ [] [] _ (by simp) rfl rfl rfl rfl rfl rfl rfl rfl (by simp) (by simp) rfl (by simp) ?_ (by simp)
        · intro id' h; cases h; rw [← hid]; exact afterSale_bid
      · intro id' _
        by_cases e : askId p b.collection b.tokenId = id'
        · exact Or.inr ⟨e ▸ afterSale_ask (a := Ask.new p sender _ _ d), e.symm, (hw.bid hb).2.1, onlyOwner_ok h2⟩
        · left; apply afterSale_asks_ne; exact e
  | restCBid coll d fn left hv hd htr hpr hn hm hl hnew => left; intro c t to; exact refund_nil_no_nft
  | buyCBid m coll d fn left a hm hv hd htr hpr hn ha hl x =>
    right; right; right
    obtain ⟨⟨aid, h1⟩, h4, h2, h3, h5⟩ := cbidMatch_some hlim ha
    rcases hm with rfl | rfl
    · exact traded_buy hw (by trivial) h1 (by simp) (.setCBid coll d) x rfl rfl rfl (chg hn hl) (by simp) (by simp) rfl ⟨h2, h3⟩
        (fun _ => h5) (fun _ _ => ⟨h4, by simp⟩) (fun _ _ _ _ _ => rfl)
        (fun h1 h2 h3 id' _ => afterSale_cbids_new (fresh_cbid h2 h1 h3 _ _ _ _) id')
    · exact traded_buy hw (by trivial) h1 (by simp) (.buyCollection coll d) x rfl rfl rfl (chg hn hl) (by simp) (by simp) rfl ⟨h2, h3⟩
        (fun _ => h5) (fun _ _ => ⟨h4, by simp⟩) (fun _ _ _ _ _ => rfl)
        (fun h1 h2 h3 id' _ => afterSale_cbids_new (fresh_cbid h2 h1 h3 _ _ _ _) id')
  | updCBid id d b fn fa left hd hb hcr hpr hn hadd hm hl => left; intro c t to; exact refund_nil_no_nft
  | updCBuy id d b a fn fa left hd hb hcr hpr hn hadd ha hl x =>
    right; right; right
    obtain ⟨⟨aid, h1⟩, h4, h2, h3, h5⟩ := cbidMatch_some hlim ha
    have hid := (hw.cbid hb).1
    refine traded_buy hw (by trivial) h1 (by simp) (.updateCBid id d b hb hcr.symm) x ?_ rfl rfl (chg' hn hadd hl) (by simp) ?_ rfl ⟨h2, h3⟩
        (fun _ => h5) (fun _ _ => ⟨h4, by simp⟩) (fun _ _ _ _ _ => rfl) ?_
    · rw [hcr]; rfl
    · intro id' h; cases h
      have k := @afterSale_cbid s a { b with details := d }
      rw [← hid]; exact k
    · intro _ _ _ id' h
      apply afterSale_cbids_ne
      show b.id ≠ id'
      rw [hid]; intro e; exact h (by rw [e])
  | rmCBid id b hf hb hcr => left; simp
  | accCBid id tok d b a hd hb hpr ha x =>
    right; right; right
    rw [hasCoins_single] at hpr
    have hid := (hw.cbid hb).1
    have hbids : ∀ id', some id ≠ some id' → (afterSale s a (.cbid b)).cbids.get? id' = s.cbids.get? id' := by
      intro id' h
      apply afterSale_cbids_ne
      rw [hid]; intro e; exact h (by rw [e])
    rcases acceptor_cases ha with ⟨h1, h2⟩ | ⟨h1, h2, rfl⟩
    · have hsame := fun hi hpf => same_of_id hw (hw.cbid hb).2.1 h1 hi hpf
      refine ⟨_, _, ⟨.acceptCBidListed id tok d _ a h1 h2, .acceptCBid id tok d b hb, ?_, ⟨hpr.1.symm, hpr.2⟩,
        (fun h => absurd h (fun h => h)), (fun h => absurd h (fun h => h)),
        (fun _ hi hpf => ⟨(hsame hi hpf).1, by simp⟩),
        (fun hi hpf _ _ _ h => by cases h; exact (hsame hi hpf).2.symm), ?_,
        (fun _ _ _ _ _ => rfl), (fun _ _ _ => hbids)⟩⟩
      · refine mkSale hw funds _ x _ _ [] [] _ (by simp) rfl rfl rfl rfl ?_ rfl rfl rfl (by simp) (by simp) rfl ?_ (by simp) ?_
        · rw [← h2]; rfl
        · intro id' h; cases h; rw [← (hw.ask h1).1]; exact afterSale_ask
        · intro id' h; cases h; rw [← hid]; exact afterSale_cbid
      · intro id' h
        left; apply afterSale_asks_ne
        rw [(hw.ask h1).1]; intro e; exact h (by rw [e])
    · refine ⟨_, _, ⟨.acceptCBid id tok d b hb, .acceptCBid id tok d b hb, ?_, ⟨hpr.1.symm, hpr.2⟩,
        (fun h => absurd h (fun h => h)), (fun h => absurd h (fun h => h)),
        (fun _ hi hpf => ⟨rfl, by simp⟩), (fun _ _ _ _ _ h => by cases h; rfl), ?_,
        (fun _ _ _ _ _ => rfl), (fun _ _ _ => hbids)⟩⟩
      · refine mkSale hw funds _ x _ _ [] [] _ (by simp) rfl rfl rfl rfl rfl rfl rfl rfl (by simp) (by simp) rfl (by simp) (by simp) ?_
        · intro id' h; cases h; rw [← hid]; exact afterSale_cbid
      · intro id' _
        by_cases e : askId p b.collection tok = id'
        · exact Or.inr ⟨e ▸ afterSale_ask (a := Ask.new p sender _ _ d), e.symm, (hw.cbid hb).2.1, onlyOwner_ok h2⟩
        · left; apply afterSale_asks_ne; exact e

/-- The same without the states. -/
theorem eff_trade {ctx : Ctx} {sender : Addr} {funds : List Coin} {m : Exec} {s s' : State} {msgs : List Msg}
    (hw : WF p s) (hlim : 1 ≤ p.maxLimit) (e : Eff p ctx sender funds s m s' msgs) :
    (∀ c t to, Msg.nft c t to ∉ msgs) ∨
    (∃ id a, m = .removeAsk id ∧ s.asks.get? id = some a ∧ a.creator = sender ∧
      msgs = [.nft a.collection a.tokenId (a.details.recipient.getD a.creator)]) ∨
    (∃ c t d id a fee, m = .setAsk c t d ∧ s'.asks.get? id = some a ∧ a.collection = c ∧ a.tokenId = t ∧
      a.details = d ∧ msgs = [.send s.config.feeManager [fee], .nft c t ctx.self]) ∨
    Traded p ctx.q s sender funds m s' msgs := by
  rcases eff_cases hw hlim e with h | ⟨id, a, h1, h2, h3, h4, _⟩ | ⟨c, t, d, id, a, fee, h1, h2, h3, h4, h5, h6, _⟩ | h
  · exact Or.inl h
  · exact Or.inr (Or.inl ⟨id, a, h1, h2, h3, h4⟩)
  · exact Or.inr (Or.inr (Or.inl ⟨c, t, d, id, a, fee, h1, h2, h3, h4, h5, h6⟩))
  · exact Or.inr (Or.inr (Or.inr h))

/-- A sale moves exactly one NFT. -/
theorem Spec.Sale.one_nft {q : Queries} {funds : List Coin} {s s' : State} {m : Exec} {msgs : List Msg} {S : Sell} {B : Buy}
    (x : Sale q funds s s' m msgs S B) : msgs.filter Msg.isNft = [.nft S.coll S.tok B.nftTo] := by
  have h1 : x.pre.filter Msg.isNft = [] := by
    rw [List.filter_eq_nil_iff]
    intro y hy
    rcases x.hpre y hy with ⟨_, rfl⟩ | rfl <;> simp [Msg.isNft]
  have h2 : x.post.filter Msg.isNft = [] := by
    rw [List.filter_eq_nil_iff]
    intro y hy
    obtain ⟨cs, rfl⟩ := x.hpost y hy
    simp [Msg.isNft]
  have h3 : (x.pays.map (fun y => Msg.send y.1 [⟨(priceOf m S B).denom, y.2⟩])).filter Msg.isNft = [] := by
    rw [List.filter_eq_nil_iff]
    intro y hy
    rw [List.mem_map] at hy
    obtain ⟨z, _, rfl⟩ := hy
    simp [Msg.isNft]
  rw [x.hmsgs, List.filter_append, List.filter_append, h1, h3, List.filter_cons_of_pos (by rfl), h2]
  rfl

/-- Fees first, then at most one payment to the seller. -/
theorem split_shape {price : Nat} {seller : Addr} {fees pays : List (Addr × Nat)}
    (h : split price seller fees = some pays) :
    ∃ last : List (Addr × Nat), (∀ f ∈ last, f.1 = seller) ∧ last.length ≤ 1 ∧
      pays = (fees.filter (fun f => decide (f.2 ≠ 0))).map (fun f => (f.1, feeDue price f.2)) ++ last := by
  unfold split at h
  simp only at h
  generalize (fees.filter (fun f => decide (f.2 ≠ 0))).map (fun f => (f.1, feeDue price f.2)) = dues at *
  split at h
  case isTrue => cases h
  case isFalse =>
    cases h
    refine ⟨_, ?_, ?_, rfl⟩
    · intro f hf
      split at hf
      · cases hf
      · rw [List.mem_singleton] at hf; rw [hf]
    · split <;> simp

end
end Verif.V2

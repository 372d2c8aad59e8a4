/-
State invariants of the v2 marketplace and per-call conservation. Helper file.
-/
import Verif.V2.Match

namespace Verif.V2
open Verif

/-- Coins of denom `d` owed to open bids and collection bids. -/
def escrow (s : State) (d : Denom) : Nat :=
  s.bids.sum (fun b => b.details.price.inDenom d) + s.cbids.sum (fun b => b.details.price.inDenom d)

/-- Basic well-formedness of storage. -/
structure WF (p : Params) (s : State) : Prop where
  ask : ∀ {id a}, s.asks.get? id = some a → a.id = id ∧ id = askId p a.collection a.tokenId ∧
    p.valid a.collection = true ∧ 0 < a.details.price.amount
  bid : ∀ {id b}, s.bids.get? id = some b → b.id = id ∧ p.valid b.collection = true ∧ 0 < b.details.price.amount
  cbid : ∀ {id b}, s.cbids.get? id = some b → b.id = id ∧ p.valid b.collection = true ∧ 0 < b.details.price.amount
  cfg : s.config.protocolFeeBps < 10000 ∧ s.config.makerRewardBps + s.config.takerRewardBps < 10000

/-- Open bids carry ids built from nonces handed out so far. -/
structure NonceInv (p : Params) (s : State) : Prop where
  lt : s.nonce < 2^64
  bid : ∀ {id b}, s.bids.get? id = some b → ∃ x h n, n ≤ s.nonce ∧ id = p.hash (x ++ be8 h ++ be8 n)
  cbid : ∀ {id b}, s.cbids.get? id = some b → ∃ x h n, n ≤ s.nonce ∧ id = p.hash (x ++ be8 h ++ be8 n)

/-- `s'` has a subset of the orders of `s`. -/
structure Shrink (s s' : State) : Prop where
  ask : ∀ {id a}, s'.asks.get? id = some a → s.asks.get? id = some a
  bid : ∀ {id b}, s'.bids.get? id = some b → s.bids.get? id = some b
  cbid : ∀ {id b}, s'.cbids.get? id = some b → s.cbids.get? id = some b

theorem erase_sub {K V : Type} [DecidableEq K] {m : AMap K V} {k id : K} {v : V}
    (h : (m.erase k).get? id = some v) : m.get? id = some v := by
  rw [AMap.get?_erase] at h
  split at h
  · cases h
  · exact h

theorem afterSale_shrink (s : State) (a : Ask) (mb : MatchingBid) : Shrink s (afterSale s a mb) := by
  cases mb with
  | bid b => exact ⟨erase_sub, erase_sub, id⟩
  | cbid b => exact ⟨erase_sub, id, erase_sub⟩

theorem afterSale_bump_shrink (s : State) (a : Ask) (mb : MatchingBid) : Shrink s (afterSale (bump s) a mb) := by
  cases mb with
  | bid b => exact ⟨erase_sub, erase_sub, id⟩
  | cbid b => exact ⟨erase_sub, id, erase_sub⟩

@[simp] theorem afterSale_config (s : State) (a : Ask) (mb : MatchingBid) : (afterSale s a mb).config = s.config := by
  cases mb <;> rfl
@[simp] theorem afterSale_nonce (s : State) (a : Ask) (mb : MatchingBid) : (afterSale s a mb).nonce = s.nonce := by
  cases mb <;> rfl
@[simp] theorem afterSale_asks (s : State) (a : Ask) (mb : MatchingBid) :
    (afterSale s a mb).asks = s.asks.erase a.id := by cases mb <;> rfl
@[simp] theorem afterSale_denoms (s : State) (a : Ask) (mb : MatchingBid) :
    (afterSale s a mb).collectionDenoms = s.collectionDenoms := by cases mb <;> rfl
@[simp] theorem afterSale_fees (s : State) (a : Ask) (mb : MatchingBid) :
    (afterSale s a mb).listingFees = s.listingFees := by cases mb <;> rfl

theorem WF.shrink {p : Params} {s s' : State} (h : WF p s) (hs : Shrink s s') (hc : s'.config = s.config) :
    WF p s' where
  ask h1 := h.ask (hs.ask h1)
  bid h1 := h.bid (hs.bid h1)
  cbid h1 := h.cbid (hs.cbid h1)
  cfg := by rw [hc]; exact h.cfg

section
variable {p : Params}

theorem WF.insert_ask {s : State} (h : WF p s) {k : Bytes} {a : Ask}
    (ha : a.id = k ∧ k = askId p a.collection a.tokenId ∧ p.valid a.collection = true ∧
      0 < a.details.price.amount) : WF p { s with asks := s.asks.insert k a } where
  ask {id a'} h1 := by
    simp only [AMap.get?_insert] at h1
    split at h1
    case isTrue hk => cases h1; subst hk; exact ha
    case isFalse => exact h.ask h1
  bid h1 := h.bid h1
  cbid h1 := h.cbid h1
  cfg := h.cfg

theorem WF.insert_bid {s : State} (h : WF p s) {k : Bytes} {b : Bid} {n : Nat}
    (hb : b.id = k ∧ p.valid b.collection = true ∧ 0 < b.details.price.amount) :
    WF p { s with nonce := n, bids := s.bids.insert k b } where
  ask h1 := h.ask h1
  bid {id b'} h1 := by
    simp only [AMap.get?_insert] at h1
    split at h1
    case isTrue hk => cases h1; subst hk; exact hb
    case isFalse => exact h.bid h1
  cbid h1 := h.cbid h1
  cfg := h.cfg

theorem WF.insert_cbid {s : State} (h : WF p s) {k : Bytes} {b : CBid} {n : Nat}
    (hb : b.id = k ∧ p.valid b.collection = true ∧ 0 < b.details.price.amount) :
    WF p { s with nonce := n, cbids := s.cbids.insert k b } where
  ask h1 := h.ask h1
  bid h1 := h.bid h1
  cbid {id b'} h1 := by
    simp only [AMap.get?_insert] at h1
    split at h1
    case isTrue hk => cases h1; subst hk; exact hb
    case isFalse => exact h.cbid h1
  cfg := h.cfg

theorem WF.init {c : Config} {s : State} (h : instantiate p c = .ok s) : WF p s := by
  unfold instantiate at h
  simp only [bind_ok, configStr_ok, configValidate_ok] at h
  obtain ⟨_, ⟨_, rfl⟩, _, hc, h⟩ := h
  cases h
  exact { ask := (fun h => nomatch h), bid := (fun h => nomatch h), cbid := (fun h => nomatch h), cfg := hc }

theorem WF.eff {ctx : Ctx} {sender : Addr} {funds : List Coin} {m : Exec} {s s' : State} {msgs : List Msg}
    (h : WF p s) (e : Eff p ctx sender funds s m s' msgs) : WF p s' := by
  cases e with
  | config c hadm hv hc => exact ⟨fun x => h.ask x, fun x => h.bid x, fun x => h.cbid x, configValidate_ok.mp hc⟩
  | denom coll den hadm => exact ⟨fun x => h.ask x, fun x => h.bid x, fun x => h.cbid x, h.cfg⟩
  | setFee fee hadm => exact ⟨fun x => h.ask x, fun x => h.bid x, fun x => h.cbid x, h.cfg⟩
  | rmFee den hadm => exact ⟨fun x => h.ask x, fun x => h.bid x, fun x => h.cbid x, h.cfg⟩
  | restAsk coll tok d pay hv hd hown htr hpr hf hpos hfee hm hnew =>
    exact h.insert_ask ⟨rfl, rfl, hv, hpr.1⟩
  | sellAsk => exact h.shrink (afterSale_shrink _ _ _) (by simp)
  | updAsk id d a hf hd ha hcr hpr hm =>
    have := h.ask ha
    exact h.insert_ask ⟨rfl, by rw [this.1]; exact this.2.1, this.2.2.1, hpr.1⟩
  | updSell => exact h.shrink (afterSale_shrink _ _ _) (by simp)
  | rmAsk => exact h.shrink ⟨erase_sub, id, id⟩ rfl
  | accAsk => exact h.shrink (afterSale_bump_shrink _ _ _) (by simp [bump])
  | restBid coll tok d fn left hv hd htr hpr hn hm hl hnew => exact h.insert_bid ⟨rfl, hv, hpr.1⟩
  | buyBid => exact h.shrink (afterSale_bump_shrink _ _ _) (by simp [bump])
  | updBid id d b fn fa left hd hb hcr hpr hn hadd hm hl =>
    exact h.insert_bid (n := s.nonce) ⟨rfl, (h.bid hb).2.1, hpr.1⟩
  | updBuy => exact h.shrink (afterSale_shrink _ _ _) (by simp)
  | rmBid => exact h.shrink ⟨id, erase_sub, id⟩ rfl
  | accBid => exact h.shrink (afterSale_shrink _ _ _) (by simp)
  | restCBid coll d fn left hv hd htr hpr hn hm hl hnew => exact h.insert_cbid ⟨rfl, hv, hpr.1⟩
  | buyCBid => exact h.shrink (afterSale_bump_shrink _ _ _) (by simp [bump])
  | updCBid id d b fn fa left hd hb hcr hpr hn hadd hm hl =>
    exact h.insert_cbid (n := s.nonce) ⟨rfl, (h.cbid hb).2.1, hpr.1⟩
  | updCBuy => exact h.shrink (afterSale_shrink _ _ _) (by simp)
  | rmCBid => exact h.shrink ⟨id, id, erase_sub⟩ rfl
  | accCBid => exact h.shrink (afterSale_shrink _ _ _) (by simp)

/-! ### Nonces -/

theorem NonceInv.init {c : Config} {s : State} (h : instantiate p c = .ok s) : NonceInv p s := by
  unfold instantiate at h
  simp only [bind_ok, configStr_ok, configValidate_ok] at h
  obtain ⟨_, ⟨_, rfl⟩, _, hc, h⟩ := h
  cases h
  exact { lt := Nat.two_pow_pos 64, bid := (fun h => nomatch h), cbid := (fun h => nomatch h) }

theorem NonceInv.shrink {s s' : State} (h : NonceInv p s) (hs : Shrink s s') (h1 : s.nonce ≤ s'.nonce)
    (h2 : s'.nonce < 2^64) : NonceInv p s' where
  lt := h2
  bid x := by obtain ⟨y, k, n, hn, e⟩ := h.bid (hs.bid x); exact ⟨y, k, n, Nat.le_trans hn h1, e⟩
  cbid x := by obtain ⟨y, k, n, hn, e⟩ := h.cbid (hs.cbid x); exact ⟨y, k, n, Nat.le_trans hn h1, e⟩

theorem nextNonce_eq {s : State} (h : s.nonce + 1 < 2^64) : nextNonce s = s.nonce + 1 := by
  unfold nextNonce; exact Nat.mod_eq_of_lt h

theorem NonceInv.eff {ctx : Ctx} {sender : Addr} {funds : List Coin} {m : Exec} {s s' : State} {msgs : List Msg}
    (h : NonceInv p s) (hw : WF p s) (hlt : s.nonce + 1 < 2^64) (e : Eff p ctx sender funds s m s' msgs) :
    NonceInv p s' := by
  have hn := nextNonce_eq hlt
  cases e with
  | config c hadm hv hc => exact ⟨h.lt, fun x => h.bid x, fun x => h.cbid x⟩
  | denom coll den hadm => exact ⟨h.lt, fun x => h.bid x, fun x => h.cbid x⟩
  | setFee fee hadm => exact ⟨h.lt, fun x => h.bid x, fun x => h.cbid x⟩
  | rmFee den hadm => exact ⟨h.lt, fun x => h.bid x, fun x => h.cbid x⟩
  | restAsk => exact ⟨h.lt, fun x => h.bid x, fun x => h.cbid x⟩
  | sellAsk => exact h.shrink (afterSale_shrink _ _ _) (by simp) (by simpa using h.lt)
  | updAsk => exact ⟨h.lt, fun x => h.bid x, fun x => h.cbid x⟩
  | updSell => exact h.shrink (afterSale_shrink _ _ _) (by simp) (by simpa using h.lt)
  | rmAsk => exact ⟨h.lt, fun x => h.bid x, fun x => h.cbid x⟩
  | accAsk => exact h.shrink (afterSale_bump_shrink _ _ _) (by simp [bump, hn]) (by simp [bump, hn]; omega)
  | restBid coll tok d fn left hv hd htr hpr hn' hm hl hnew =>
    refine ⟨by simp only [hn]; omega, ?_, ?_⟩
    · intro id b hb
      simp only [AMap.get?_insert] at hb
      split at hb
      case isTrue hk => cases hb; subst hk; exact ⟨coll ++ tok, ctx.height, nextNonce s, Nat.le_refl _, rfl⟩
      case isFalse =>
        obtain ⟨y, k, n, hle, e⟩ := h.bid hb
        exact ⟨y, k, n, by simp only [hn]; omega, e⟩
    · intro id b hb
      obtain ⟨y, k, n, hle, e⟩ := h.cbid hb
      exact ⟨y, k, n, by simp only [hn]; omega, e⟩
  | buyBid => exact h.shrink (afterSale_bump_shrink _ _ _) (by simp [bump, hn]) (by simp [bump, hn]; omega)
  | updBid id d b fn fa left hd hb hcr hpr hn' hadd hm hl =>
    refine ⟨h.lt, ?_, fun x => h.cbid x⟩
    intro id' b' hb'
    simp only [AMap.get?_insert] at hb'
    split at hb'
    case isTrue hk => cases hb'; subst hk; rw [(hw.bid hb).1]; exact h.bid hb
    case isFalse => exact h.bid hb'
  | updBuy => exact h.shrink (afterSale_shrink _ _ _) (by simp) (by simpa using h.lt)
  | rmBid => exact h.shrink ⟨id, erase_sub, id⟩ (Nat.le_refl _) h.lt
  | accBid => exact h.shrink (afterSale_shrink _ _ _) (by simp) (by simpa using h.lt)
  | restCBid coll d fn left hv hd htr hpr hn' hm hl hnew =>
    refine ⟨by simp only [hn]; omega, ?_, ?_⟩
    · intro id b hb
      obtain ⟨y, k, n, hle, e⟩ := h.bid hb
      exact ⟨y, k, n, by simp only [hn]; omega, e⟩
    · intro id b hb
      simp only [AMap.get?_insert] at hb
      split at hb
      case isTrue hk => cases hb; subst hk; exact ⟨coll, ctx.height, nextNonce s, Nat.le_refl _, rfl⟩
      case isFalse =>
        obtain ⟨y, k, n, hle, e⟩ := h.cbid hb
        exact ⟨y, k, n, by simp only [hn]; omega, e⟩
  | buyCBid => exact h.shrink (afterSale_bump_shrink _ _ _) (by simp [bump, hn]) (by simp [bump, hn]; omega)
  | updCBid id d b fn fa left hd hb hcr hpr hn' hadd hm hl =>
    refine ⟨h.lt, fun x => h.bid x, ?_⟩
    intro id' b' hb'
    simp only [AMap.get?_insert] at hb'
    split at hb'
    case isTrue hk => cases hb'; subst hk; rw [(hw.cbid hb).1]; exact h.cbid hb
    case isFalse => exact h.cbid hb'
  | updCBuy => exact h.shrink (afterSale_shrink _ _ _) (by simp) (by simpa using h.lt)
  | rmCBid => exact h.shrink ⟨id, id, erase_sub⟩ (Nat.le_refl _) h.lt
  | accCBid => exact h.shrink (afterSale_shrink _ _ _) (by simp) (by simpa using h.lt)

theorem append_be8_inj {x y : Bytes} {h k n m : Nat} (hn : n < 2^64) (hm : m < 2^64)
    (e : x ++ be8 h ++ be8 n = y ++ be8 k ++ be8 m) : n = m := by
  have := List.append_inj_right' e (by simp [be8_length])
  exact be8_inj hn hm this

theorem fresh_bid {s : State} (h : NonceInv p s) (hinj : ∀ a b, p.hash a = p.hash b → a = b)
    (hlt : s.nonce + 1 < 2^64) (sender coll tok : Bytes) (d : Details) (ht : Nat) :
    s.bids.get? (Bid.new p sender coll tok d ht (nextNonce s)).id = none := by
  cases hg : s.bids.get? (Bid.new p sender coll tok d ht (nextNonce s)).id with
  | none => rfl
  | some b =>
    obtain ⟨y, k, n, hle, e⟩ := h.bid hg
    have := append_be8_inj (by rw [nextNonce_eq hlt]; exact hlt) (by have := h.lt; omega) (hinj _ _ e)
    rw [nextNonce_eq hlt] at this; omega

theorem fresh_cbid {s : State} (h : NonceInv p s) (hinj : ∀ a b, p.hash a = p.hash b → a = b)
    (hlt : s.nonce + 1 < 2^64) (sender coll : Bytes) (d : Details) (ht : Nat) :
    s.cbids.get? (CBid.new p sender coll d ht (nextNonce s)).id = none := by
  cases hg : s.cbids.get? (CBid.new p sender coll d ht (nextNonce s)).id with
  | none => rfl
  | some b =>
    obtain ⟨y, k, n, hle, e⟩ := h.cbid hg
    have := append_be8_inj (by rw [nextNonce_eq hlt]; exact hlt) (by have := h.lt; omega) (hinj _ _ e)
    rw [nextNonce_eq hlt] at this; omega

/-! ### Conservation -/

theorem fetchOrSet_msgs {ctx : Ctx} {v : Bytes → Bool} {reg coll : Addr} {r : Option Royalty × List Msg}
    (h : fetchOrSetRoyalties ctx v reg coll = .ok r) : r.2 = [] ∨ r.2 = [.initRoyalty reg coll] := by
  unfold fetchOrSetRoyalties at h
  rw [bind_ok] at h
  obtain ⟨e, _, h⟩ := h
  split at h
  · cases h; exact Or.inl rfl
  · split at h
    · split at h
      · cases h; exact Or.inl rfl
      · split at h
        · cases h; exact Or.inr rfl
        · cases h
    · cases h; exact Or.inl rfl

theorem SaleParts.outflow {ctx : Ctx} {a : Ask} {c : Config} {mb : MatchingBid} {abb : Bool}
    (x : SaleParts p ctx a c mb abb) (d : Denom) : outflow d x.msgs = (saleTerms a mb abb).1.inDenom d := by
  unfold SaleParts.msgs
  rw [outflow_append, outflow_append, outflow_payout x.hpay]
  have h1 : Verif.outflow d x.roy.2 = 0 := by
    rcases fetchOrSet_msgs x.hroy with h | h <;> rw [h] <;> rfl
  have h2 : Verif.outflow d [transferNft a.collection a.tokenId mb.recipient] = 0 := rfl
  omega

theorem refund_outflow (sender : Addr) (left : List Coin) (ms : List Msg) (d : Denom) :
    outflow d (refund sender left ms) = outflow d ms + amountOf d left := by
  unfold refund
  split
  case isTrue h => rw [nbIsEmpty_amountOf h]; rfl
  case isFalse => rw [outflow_append]; rfl

theorem escrow_erase_bid {s : State} {a : Ask} {b b' : Bid} {id : Bytes} (h : s.bids.get? id = some b')
    (hid : b.id = id) (d : Denom) : escrow (afterSale s a (.bid b)) d + b'.details.price.inDenom d = escrow s d := by
  have := AMap.sum_erase_of_get? (fun b => b.details.price.inDenom d) h
  simp only [escrow, afterSale, removeMatching, hid]
  omega

theorem escrow_erase_cbid {s : State} {a : Ask} {b b' : CBid} {id : Bytes} (h : s.cbids.get? id = some b')
    (hid : b.id = id) (d : Denom) : escrow (afterSale s a (.cbid b)) d + b'.details.price.inDenom d = escrow s d := by
  have := AMap.sum_erase_of_get? (fun b => b.details.price.inDenom d) h
  simp only [escrow, afterSale, removeMatching, hid]
  omega

theorem escrow_bump_bid {s : State} {a : Ask} {b : Bid} (d : Denom) :
    escrow (afterSale (bump s) a (.bid b)) d + ((s.bids.get? b.id).map (fun b => b.details.price.inDenom d)).getD 0
      = escrow s d := by
  have := AMap.sum_erase s.bids b.id (fun b => b.details.price.inDenom d)
  simp only [escrow, afterSale, removeMatching, bump]
  omega

theorem escrow_bump_cbid {s : State} {a : Ask} {b : CBid} (d : Denom) :
    escrow (afterSale (bump s) a (.cbid b)) d + ((s.cbids.get? b.id).map (fun b => b.details.price.inDenom d)).getD 0
      = escrow s d := by
  have := AMap.sum_erase s.cbids b.id (fun b => b.details.price.inDenom d)
  simp only [escrow, afterSale, removeMatching, bump]
  omega

/-- Coins that stay in the contract although nobody can claim them: funds attached to the admin messages,
`AcceptBid` and `AcceptCollectionBid`. -/
def kept (funds : List Coin) (d : Denom) : Exec → Nat
  | .updateConfig _ => amountOf d funds
  | .updateCollectionDenom _ _ => amountOf d funds
  | .setListingFee _ => amountOf d funds
  | .removeListingFee _ => amountOf d funds
  | .acceptBid _ _ => amountOf d funds
  | .acceptCollectionBid _ _ _ => amountOf d funds
  | _ => 0

/-- Escrow freed because the id of the new order collides with an open one (never happens, see `fresh_bid`). -/
def clash (p : Params) (ctx : Ctx) (sender : Addr) (s : State) (d : Denom) : Exec → Nat
  | .acceptAsk id det =>
    match s.asks.get? id with
    | some a =>
      ((s.bids.get? (Bid.new p sender a.collection a.tokenId det ctx.height (nextNonce s)).id).map
        (fun b => b.details.price.inDenom d)).getD 0
    | none => 0
  | .setBid coll tok det | .buySpecificNft coll tok det =>
    ((s.bids.get? (Bid.new p sender coll tok det ctx.height (nextNonce s)).id).map
      (fun b => b.details.price.inDenom d)).getD 0
  | .setCollectionBid coll det | .buyCollectionNft coll det =>
    ((s.cbids.get? (CBid.new p sender coll det ctx.height (nextNonce s)).id).map
      (fun b => b.details.price.inDenom d)).getD 0
  | _ => 0

theorem acceptorAsk_id {ctx : Ctx} {sender : Addr} {coll tok : Bytes} {d : Details} {s : State} {a : Ask}
    (hw : WF p s) (h : acceptorAsk p ctx sender coll tok d s = .ok a) :
    a.id = askId p coll tok := by
  unfold acceptorAsk at h
  split at h
  case h_1 a' ha =>
    simp only [bind_ok, ensure_ok] at h
    obtain ⟨_, _, h⟩ := h
    cases h
    exact (hw.ask ha).1
  case h_2 =>
    rw [bind_ok] at h
    obtain ⟨_, _, h⟩ := h
    cases h; rfl

/-- Per-call accounting. -/
theorem conservation {ctx : Ctx} {sender : Addr} {funds : List Coin} {m : Exec} {s s' : State} {msgs : List Msg}
    (hw : WF p s) (hlim : 1 ≤ p.maxLimit) (e : Eff p ctx sender funds s m s' msgs) (d : Denom) :
    amountOf d funds + escrow s d = outflow d msgs + escrow s' d + kept funds d m + clash p ctx sender s d m := by
  cases e with
  | config c hadm hv hc => simp [kept, clash, escrow]; omega
  | denom coll den hadm => simp [kept, clash, escrow]; omega
  | setFee fee hadm => simp [kept, clash, escrow]; omega
  | rmFee den hadm => simp [kept, clash, escrow]; omega
  | restAsk coll tok det pay hv hd hown htr hpr hf hpos hfee hm hnew =>
    subst hf
    simp only [kept, clash, escrow, outflow_cons, outflow_nil, Msg.out_send, Msg.out_nft]
    omega
  | sellAsk m coll tok det pay mb hm hv hd hown htr hpr hf hpos hfee hmb x =>
    subst hf
    rw [outflow_cons, Msg.out_send, x.outflow]
    have hk : kept [pay] d m = 0 := by rcases hm with rfl | rfl <;> rfl
    have hc : clash p ctx sender s d m = 0 := by rcases hm with rfl | rfl <;> rfl
    rw [hk, hc]
    cases mb with
    | bid b =>
      obtain ⟨⟨id, hb⟩, _⟩ := matchWithBid_bid hlim hmb
      have := escrow_erase_bid (a := Ask.new p sender coll tok det) hb (hw.bid hb).1 d
      simp only [saleTerms, MatchingBid.details, Bool.false_eq_true, if_false]
      omega
    | cbid b =>
      obtain ⟨⟨id, hb⟩, _⟩ := matchWithBid_cbid hlim hmb
      have := escrow_erase_cbid (a := Ask.new p sender coll tok det) hb (hw.cbid hb).1 d
      simp only [saleTerms, MatchingBid.details, Bool.false_eq_true, if_false]
      omega
  | updAsk id det a hf hd ha hcr hpr hm =>
    subst hf
    simp only [kept, clash, escrow, outflow_nil, amountOf]
    omega
  | updSell id det a mb hf hd ha hcr hpr hmb x =>
    subst hf
    rw [x.outflow]
    cases mb with
    | bid b =>
      obtain ⟨⟨id, hb⟩, _⟩ := matchWithBid_bid hlim hmb
      have := escrow_erase_bid (a := { a with details := det }) hb (hw.bid hb).1 d
      simp only [saleTerms, MatchingBid.details, Bool.false_eq_true, if_false, kept, clash, amountOf]
      omega
    | cbid b =>
      obtain ⟨⟨id, hb⟩, _⟩ := matchWithBid_cbid hlim hmb
      have := escrow_erase_cbid (a := { a with details := det }) hb (hw.cbid hb).1 d
      simp only [saleTerms, MatchingBid.details, Bool.false_eq_true, if_false, kept, clash, amountOf]
      omega
  | rmAsk id a hf ha hcr =>
    subst hf
    simp only [kept, clash, escrow, outflow_cons, outflow_nil, Msg.out_nft, amountOf]
    omega
  | accAsk id det a fn left hd hn ha hpr hl x =>
    have h1 := (nbNormalize_ok hn).1 d
    have h2 := (nbSub_ok hl).1 d
    have h3 := escrow_bump_bid (s := s) (a := a)
      (b := Bid.new p sender a.collection a.tokenId det ctx.height (nextNonce s)) d
    rw [refund_outflow, x.outflow]
    simp only [saleTerms, if_true, kept, clash, ha]
    omega
  | restBid coll tok det fn left hv hd htr hpr hn hm hl hnew =>
    have h1 := (nbNormalize_ok hn).1 d
    have h2 := (nbSub_ok hl).1 d
    have h3 := AMap.sum_insert_new (Bid.new p sender coll tok det ctx.height (nextNonce s))
      (fun b => b.details.price.inDenom d) hnew
    have h4 : (Bid.new p sender coll tok det ctx.height (nextNonce s)).details = det := rfl
    rw [refund_outflow]
    simp only [kept, clash, escrow, outflow_nil, hnew, Option.map_none, Option.getD_none, h4] at h3 ⊢
    omega
  | buyBid m coll tok det fn left a hm hv hd htr hpr hn ha hl x =>
    have h1 := (nbNormalize_ok hn).1 d
    have h2 := (nbSub_ok hl).1 d
    have h3 := escrow_bump_bid (s := s) (a := a) (b := Bid.new p sender coll tok det ctx.height (nextNonce s)) d
    rw [refund_outflow, x.outflow]
    rcases hm with rfl | rfl
    · simp only [saleTerms, if_true, kept, clash]; omega
    · simp only [saleTerms, if_true, kept, clash]; omega
  | updBid id det b fn fa left hd hb hcr hpr hn hadd hm hl =>
    have h1 := (nbNormalize_ok hn).1 d
    have h2 := (nbAdd_ok hadd).1 d
    have h3 := (nbSub_ok hl).1 d
    have h4 := AMap.sum_insert_old { b with details := det } (fun b => b.details.price.inDenom d) hb
    rw [refund_outflow]
    have h5 := (hw.bid hb).1
    rw [← h5] at h4
    simp only [kept, clash, escrow, outflow_nil] at h4 ⊢
    omega
  | updBuy id det b a fn fa left hd hb hcr hpr hn hadd ha hl x =>
    have h1 := (nbNormalize_ok hn).1 d
    have h2 := (nbAdd_ok hadd).1 d
    have h3 := (nbSub_ok hl).1 d
    have h4 := escrow_erase_bid (a := a) (b := { b with details := det }) hb (hw.bid hb).1 d
    rw [refund_outflow, x.outflow]
    simp only [saleTerms, if_true, kept, clash]
    omega
  | rmBid id b hf hb hcr =>
    subst hf
    have := AMap.sum_erase_of_get? (fun b => b.details.price.inDenom d) hb
    rw [(hw.bid hb).1]
    simp only [kept, clash, escrow, outflow_cons, outflow_nil, Msg.out_send, amountOf] at this ⊢
    omega
  | accBid id det b a hd hb hpr ha x =>
    have h4 := escrow_erase_bid (a := a) hb (hw.bid hb).1 d
    rw [x.outflow]
    simp only [saleTerms, MatchingBid.details, Bool.false_eq_true, if_false, kept, clash]
    omega
  | restCBid coll det fn left hv hd htr hpr hn hm hl hnew =>
    have h1 := (nbNormalize_ok hn).1 d
    have h2 := (nbSub_ok hl).1 d
    have h3 := AMap.sum_insert_new (CBid.new p sender coll det ctx.height (nextNonce s))
      (fun b => b.details.price.inDenom d) hnew
    have h4 : (CBid.new p sender coll det ctx.height (nextNonce s)).details = det := rfl
    rw [refund_outflow]
    simp only [kept, clash, escrow, outflow_nil, hnew, Option.map_none, Option.getD_none, h4] at h3 ⊢
    omega
  | buyCBid m coll det fn left a hm hv hd htr hpr hn ha hl x =>
    have h1 := (nbNormalize_ok hn).1 d
    have h2 := (nbSub_ok hl).1 d
    have h3 := escrow_bump_cbid (s := s) (a := a) (b := CBid.new p sender coll det ctx.height (nextNonce s)) d
    rw [refund_outflow, x.outflow]
    rcases hm with rfl | rfl
    · simp only [saleTerms, if_true, kept, clash]; omega
    · simp only [saleTerms, if_true, kept, clash]; omega
  | updCBid id det b fn fa left hd hb hcr hpr hn hadd hm hl =>
    have h1 := (nbNormalize_ok hn).1 d
    have h2 := (nbAdd_ok hadd).1 d
    have h3 := (nbSub_ok hl).1 d
    have h4 := AMap.sum_insert_old { b with details := det } (fun b => b.details.price.inDenom d) hb
    rw [refund_outflow]
    have h5 := (hw.cbid hb).1
    rw [← h5] at h4
    simp only [kept, clash, escrow, outflow_nil] at h4 ⊢
    omega
  | updCBuy id det b a fn fa left hd hb hcr hpr hn hadd ha hl x =>
    have h1 := (nbNormalize_ok hn).1 d
    have h2 := (nbAdd_ok hadd).1 d
    have h3 := (nbSub_ok hl).1 d
    have h4 := escrow_erase_cbid (a := a) (b := { b with details := det }) hb (hw.cbid hb).1 d
    rw [refund_outflow, x.outflow]
    simp only [saleTerms, if_true, kept, clash]
    omega
  | rmCBid id b hf hb hcr =>
    subst hf
    have := AMap.sum_erase_of_get? (fun b => b.details.price.inDenom d) hb
    rw [(hw.cbid hb).1]
    simp only [kept, clash, escrow, outflow_cons, outflow_nil, Msg.out_send, amountOf] at this ⊢
    omega
  | accCBid id tok det b a hd hb hpr ha x =>
    have h4 := escrow_erase_cbid (a := a) hb (hw.cbid hb).1 d
    rw [x.outflow]
    simp only [saleTerms, MatchingBid.details, Bool.false_eq_true, if_false, kept, clash]
    omega

/-- Without nonce wrap-around and hash collisions nothing clashes. -/
theorem clash_zero {ctx : Ctx} {sender : Addr} {m : Exec} {s : State} (hn : NonceInv p s)
    (hinj : ∀ a b, p.hash a = p.hash b → a = b) (hlt : s.nonce + 1 < 2^64) (d : Denom) :
    clash p ctx sender s d m = 0 := by
  cases m <;> simp only [clash]
  case acceptAsk id det =>
    split
    · rw [fresh_bid hn hinj hlt]; rfl
    · rfl
  case setBid => rw [fresh_bid hn hinj hlt]; rfl
  case buySpecificNft => rw [fresh_bid hn hinj hlt]; rfl
  case setCollectionBid => rw [fresh_cbid hn hinj hlt]; rfl
  case buyCollectionNft => rw [fresh_cbid hn hinj hlt]; rfl

end
end Verif.V2

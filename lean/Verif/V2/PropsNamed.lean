/-
Marketplace v2: the recipient and the finder that a call names: C163.
-/
import Verif.V2.PropsDepth

namespace Verif.V2
open Verif Spec

/-- What a trading call says about price, recipient and finder. -/
def Spec.named : Exec → Option Details
  | .setAsk _ _ d | .sellNft _ _ d | .updateAsk _ d | .acceptAsk _ d | .setBid _ _ d | .buySpecificNft _ _ d | .updateBid _ d
  | .acceptBid _ d | .setCollectionBid _ d | .buyCollectionNft _ d | .updateCollectionBid _ d | .acceptCollectionBid _ _ d => some d
  | _ => none

/-- A call that trades does so with the recipient and the finder that it names: for a seller the account that is paid and its finder, for a
buyer the account that gets the token and its finder. -/
def C163_statement : Prop :=
  ∀ (p : Params) (me : Addr) (G : State → Prop), 1 ≤ p.maxLimit → HashInj p → PrefixFree p → NoSlash p →
  ∀ (s s' : State) (ctx : Ctx) (sender : Addr) (funds : List Coin) (m : Exec) (msgs : List Msg) (d : Details),
    Reach p me G s → ctx.self = me → named m = some d → execute p ctx sender funds m s = .ok (s', msgs) → Trades m s' me msgs →
    ∃ S B, SellBy s sender m S ∧ BuyBy s sender m B ∧ Nonempty (Sale ctx.q funds s s' m msgs S B) ∧
      (SellerCall m = true → S.payTo = d.recipient.getD sender ∧ S.finder = d.finder) ∧
      (SellerCall m = false → B.nftTo = d.recipient.getD sender ∧ B.finder = d.finder)

section
variable {p : Params} {me : Addr} {G : State → Prop}

/-- What holds for every call: it is as the call says, except that a bid which the caller accepts for a token that it has listed is paid to
the recipient of the listing, with the finder of the listing. -/
theorem C163_partial_listed (hlim : 1 ≤ p.maxLimit) {s s' : State} {ctx : Ctx} {sender : Addr} {funds : List Coin} {m : Exec} {msgs : List Msg}
    {d : Details} (hr : Reach p me G s) (hself : ctx.self = me) (hd : named m = some d)
    (hx : execute p ctx sender funds m s = .ok (s', msgs)) (ht : Trades m s' me msgs) :
    ∃ S B, SellBy s sender m S ∧ BuyBy s sender m B ∧ Nonempty (Sale ctx.q funds s s' m msgs S B) ∧
      (SellerCall m = true → S.payTo = d.recipient.getD sender ∧ S.finder = d.finder ∨
        ((∃ id, m = .acceptBid id d) ∨ ∃ id t, m = .acceptCollectionBid id t d) ∧
        ∃ aid a, s.asks.get? aid = some a ∧ a.creator = sender ∧ a.collection = S.coll ∧ a.tokenId = S.tok ∧
          S.payTo = a.details.recipient.getD sender ∧ S.finder = a.details.finder) ∧
      (SellerCall m = false → B.nftTo = d.recipient.getD sender ∧ B.finder = d.finder) := by
  obtain ⟨S, B, h⟩ := trade_main hr hlim hself hx ht
  refine ⟨S, B, h.sell, h.buy, h.sale, fun hs => ?_, fun hs => ?_⟩
  · have h1 := h.sell
    cases h1 with
    | setAsk => cases hd; exact Or.inl ⟨rfl, rfl⟩
    | sellNft => cases hd; exact Or.inl ⟨rfl, rfl⟩
    | updateAsk => cases hd; exact Or.inl ⟨rfl, rfl⟩
    | acceptBid => cases hd; exact Or.inl ⟨rfl, rfl⟩
    | acceptBidListed id _ aid a ha hc => cases hd; exact Or.inr ⟨Or.inl ⟨id, rfl⟩, aid, a, ha, hc, rfl, rfl, rfl, rfl⟩
    | acceptCBid => cases hd; exact Or.inl ⟨rfl, rfl⟩
    | acceptCBidListed id t _ aid a ha hc => cases hd; exact Or.inr ⟨Or.inr ⟨id, t, rfl⟩, aid, a, ha, hc, rfl, rfl, rfl, rfl⟩
    | resting m aid a hm => rw [(show SellerCall m = false by cases m <;> first | exact absurd hm (fun h => h) | rfl)] at hs; cases hs
  · have h1 := h.buy
    cases h1 with
    | acceptAsk => cases hd; exact ⟨rfl, rfl⟩
    | setBid => cases hd; exact ⟨rfl, rfl⟩
    | buySpecific => cases hd; exact ⟨rfl, rfl⟩
    | updateBid => cases hd; exact ⟨rfl, rfl⟩
    | setCBid => cases hd; exact ⟨rfl, rfl⟩
    | buyCollection => cases hd; exact ⟨rfl, rfl⟩
    | updateCBid => cases hd; exact ⟨rfl, rfl⟩
    | acceptBid => cases hs
    | acceptCBid => cases hs
    | restBid m id b hm => rw [(show SellerCall m = true by cases m <;> first | exact absurd hm (fun h => h) | rfl)] at hs; cases hs
    | restCBid m id b hm => rw [(show SellerCall m = true by cases m <;> first | exact absurd hm (fun h => h) | rfl)] at hs; cases hs

/-- What holds: it is as the call says if the caller does not accept a bid on a token that it has listed. -/
theorem C163_partial (hlim : 1 ≤ p.maxLimit) {s s' : State} {ctx : Ctx} {sender : Addr} {funds : List Coin}
    {m : Exec} {msgs : List Msg} {d : Details} (hr : Reach p me G s) (hself : ctx.self = me) (hd : named m = some d)
    (hx : execute p ctx sender funds m s = .ok (s', msgs)) (ht : Trades m s' me msgs)
    (hno : ((∃ id, m = .acceptBid id d) ∨ ∃ id t, m = .acceptCollectionBid id t d) → ∀ aid a to, s.asks.get? aid = some a →
      a.creator = sender → .nft a.collection a.tokenId to ∉ msgs) :
    ∃ S B, SellBy s sender m S ∧ BuyBy s sender m B ∧ Nonempty (Sale ctx.q funds s s' m msgs S B) ∧
      (SellerCall m = true → S.payTo = d.recipient.getD sender ∧ S.finder = d.finder) ∧
      (SellerCall m = false → B.nftTo = d.recipient.getD sender ∧ B.finder = d.finder) := by
  obtain ⟨S, B, h1, h2, ⟨x⟩, h4, h5⟩ := C163_partial_listed hlim hr hself hd hx ht
  refine ⟨S, B, h1, h2, ⟨x⟩, fun hs => ?_, h5⟩
  rcases h4 hs with h4 | ⟨hm, aid, a, ha, hc, e1, e2, _⟩
  · exact h4
  · exfalso
    refine hno hm aid a B.nftTo ha hc ?_
    rw [e1, e2, x.hmsgs]
    simp

end

namespace Sample
/-- alice has listed the token for 100 and accepts bob's bid of 80; the money is to go to `dest`, but goes to alice -/
def dest : Addr := [10, 10, 10]
@[inherit_doc dest] def detC : Details := ⟨⟨ust, 80⟩, some dest, none⟩
theorem accC_ok : execute P (ctx (some self)) alice [] (.acceptBid bid detC) s4 =
    .ok (run (ctx (some self)) alice [] (.acceptBid bid detC) s4) := run_eq (by decide +kernel)
theorem accC_trades : Trades (.acceptBid bid detC)
    (run (ctx (some self)) alice [] (.acceptBid bid detC) s4).1 self
    (run (ctx (some self)) alice [] (.acceptBid bid detC) s4).2 :=
  trades_of (c := coll) (t := tok) (to := bob) (by decide +kernel) (by decide) (by simp)
example : gets dest ust (run (ctx (some self)) alice [] (.acceptBid bid detC) s4).2 = 0 ∧
    0 < gets alice ust (run (ctx (some self)) alice [] (.acceptBid bid detC) s4).2 := by decide +kernel
example := C163_partial_listed (by decide) r4 rfl rfl accC_ok accC_trades
example := C163_partial (by decide) r4 rfl rfl buy_ok buy_trades (fun h => by rcases h with ⟨_, h⟩ | ⟨_, _, h⟩ <;> cases h)
end Sample

/-- The code violates C163: the recipient that AcceptBid names is not used if the token is listed. -/
theorem C163_violated : ¬ C163_statement := by
  intro h
  obtain ⟨S, B, h1, h2, ⟨x⟩, h4, _⟩ := h Sample.P Sample.self _ (by decide) Sample.hashInj Sample.prefixFree Sample.noSlash Sample.s4
    (Sample.run (Sample.ctx (some Sample.self)) Sample.alice [] (.acceptBid Sample.bid Sample.detC) Sample.s4).1
    (Sample.ctx (some Sample.self)) Sample.alice [] (.acceptBid Sample.bid Sample.detC)
    (Sample.run (Sample.ctx (some Sample.self)) Sample.alice [] (.acceptBid Sample.bid Sample.detC) Sample.s4).2
    Sample.detC Sample.r4 rfl rfl Sample.accC_ok Sample.accC_trades
  obtain ⟨e1, e2⟩ := h4 rfl
  have hp := x.hpays
  have hmsg := x.hmsgs
  have hB : B.limit = ⟨Sample.ust, 80⟩ ∧ B.finder = some Sample.carol := by
    cases h2 with
    | acceptBid _ _ b hb => rw [Sample.get_bid] at hb; cases hb; exact ⟨rfl, rfl⟩
    | restBid _ _ _ hm => exact hm.elim
    | restCBid _ _ _ hm => exact hm.elim
  have hS : S.coll = Sample.coll := by
    cases h1 with
    | acceptBid _ _ b hb => rw [Sample.get_bid] at hb; cases hb; rfl
    | acceptBidListed _ _ aid a ha hc =>
      have h1 : ∀ x ∈ Sample.s4.asks.l, x.2.collection = Sample.coll := by decide +kernel
      exact h1 (aid, a) (AMap.mem_iff.mpr ha)
    | resting _ _ _ hm => exact hm.elim
  have e3 : priceOf (.acceptBid Sample.bid Sample.detC) S B = ⟨Sample.ust, 80⟩ := hB.1
  have e4 : makerOf (.acceptBid Sample.bid Sample.detC) S B = some Sample.carol := hB.2
  have e5 : takerOf (.acceptBid Sample.bid Sample.detC) S B = none := e2
  rw [e3, e4, e5, e1, hS] at hp
  have h6 : ∀ l, split 80 Sample.dest (feeShares Sample.s4.config (some Sample.carol) none ++
      royaltyShare (Sample.ctx (some Sample.self)).q Sample.s4.config Sample.coll) = some l → ∃ n, (Sample.dest, n) ∈ l := by
    have h7 : ((split 80 Sample.dest (feeShares Sample.s4.config (some Sample.carol) none ++
      royaltyShare (Sample.ctx (some Sample.self)).q Sample.s4.config Sample.coll)).getD []).any (fun x => x.1 = Sample.dest) = true := by
      decide +kernel
    intro l hl
    rw [hl] at h7
    obtain ⟨y, hy, e⟩ := List.any_eq_true.mp h7
    have e' : y.1 = Sample.dest := by simpa using e
    exact ⟨y.2, by rw [← e']; exact hy⟩
  obtain ⟨n, hn⟩ := h6 _ hp
  have h8 : ∀ x ∈ (Sample.run (Sample.ctx (some Sample.self)) Sample.alice [] (.acceptBid Sample.bid Sample.detC) Sample.s4).2,
      ∀ c, x = .send Sample.dest c → False := by
    have h9 : ((Sample.run (Sample.ctx (some Sample.self)) Sample.alice [] (.acceptBid Sample.bid Sample.detC) Sample.s4).2.any
      (fun x => match x with | .send a _ => a = Sample.dest | _ => false)) = false := by decide +kernel
    intro x hx c e
    have h10 := List.any_eq_false.mp h9 x hx
    rw [e] at h10
    simp at h10
  refine h8 (.send Sample.dest [⟨(priceOf (.acceptBid Sample.bid Sample.detC) S B).denom, n⟩]) ?_ _ rfl
  rw [hmsg]
  simp only [List.mem_append, List.mem_map]
  exact Or.inl (Or.inr ⟨_, hn, rfl⟩)

end Verif.V2

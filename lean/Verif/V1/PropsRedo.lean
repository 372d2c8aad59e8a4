/-
Marketplace v1: changing an order in place, compared with withdrawing it and placing it anew (C156).
-/
import Verif.V1.PropsSize

namespace Verif.V1
open Verif Spec

variable {p : Params} {me : Addr}

/-- The messages of a payout are determined. -/
theorem Paid.same {ctx ctx' : Ctx} {s s' : State} {coll : Addr} {payment : Nat} {to : Addr} {finder : Option Addr} {fee : Option Nat}
    {ms ms' : List Msg} (hq : ctx.q.collInfo = ctx'.q.collInfo) (hp : s.params = s'.params)
    (h : Paid ctx s coll payment to finder fee ms) (h' : Paid ctx' s' coll payment to finder fee ms') : ms = ms' := by
  have hn : netFee s payment = netFee s' payment := by unfold netFee; rw [hp]
  cases h with
  | royalty info roy hinfo hroy hpos hone hfit htot =>
    cases h' with
    | royalty info' roy' hinfo' hroy' hpos' hone' hfit' htot' =>
      rw [hq] at hinfo
      cases Option.some.inj (hinfo.symm.trans hinfo')
      cases Option.some.inj (hroy.symm.trans hroy')
      rw [hn]
    | plain info' hinfo' hroy' htot' =>
      rw [hq] at hinfo
      cases Option.some.inj (hinfo.symm.trans hinfo')
      exact absurd (hroy' roy hroy) (Nat.ne_of_gt hpos)
  | plain info hinfo hroy htot =>
    cases h' with
    | royalty info' roy' hinfo' hroy' hpos' hone' hfit' htot' =>
      rw [hq] at hinfo
      cases Option.some.inj (hinfo.symm.trans hinfo')
      exact absurd (hroy roy' hroy') (Nat.ne_of_gt hpos')
    | plain info' hinfo' hroy' htot' => rw [hn]

theorem Sold.same {ctx ctx' : Ctx} {s s' : State} {a : Ask} {price : Nat} {buyer : Addr} {finder recipient : Option Addr}
    {ms ms' : List Msg} (hq : ctx.q.collInfo = ctx'.q.collInfo) (hp : s.params = s'.params) (hh : s.saleHooks = s'.saleHooks)
    (h : Sold ctx s a price buyer finder recipient ms) (h' : Sold ctx' s' a price buyer finder recipient ms') : ms = ms' := by
  cases h with
  | mk pay h =>
  cases h' with
  | mk pay' h' => rw [h.same hq hp h', show saleHook s a buyer = saleHook s' a buyer by unfold saleHook; rw [hh]]

/-! ### C156 -/

/-- Listings: if the caller is the one that has listed the token, the state is the same. -/
theorem C156_ask {ctx1 ctx2 ctx3 : Ctx} {sender : Addr} {f1 f2 f3 : List Coin} {coll : Bytes} {tok : Nat} {price : Coin} {a : Ask}
    {s s1 s2 s3 : State} {m1 m2 m3 : List Msg} (hr : Reach p me s) (ha : s.asks.get? (coll, tok) = some a) (hs : a.seller = sender)
    (h1 : execute p ctx1 sender f1 (.removeAsk coll tok) s = .ok (s1, m1))
    (h2 : execute p ctx2 sender f2 (.setAsk a.saleType coll tok price a.fundsRecipient a.reserveFor a.findersFee a.expiresAt) s1 =
      .ok (s2, m2))
    (h3 : execute p ctx3 sender f3 (.updateAskPrice coll tok price) s = .ok (s3, m3)) : s2 = s3 := by
  have hgood := (Spec.Reach.wf hr).asks _ _ ha
  cases execute_eff h1 with
  | bidSaved _ b _ hm => cases hm
  | bought _ b _ _ _ hm => cases hm
  | removeAsk _ _ a' _ _ _ ha' =>
  cases execute_eff h3 with
  | bidSaved _ b _ hm => cases hm
  | bought _ b _ _ _ hm => cases hm
  | updatePrice _ _ _ a' _ _ _ _ _ _ ha' hact _ =>
  cases Option.some.inj (ha.symm.trans ha')
  cases execute_eff h2 with
  | bidSaved _ b _ hm => cases hm
  | bought _ b _ _ _ hm => cases hm
  | setAsk _ _ _ _ _ _ _ _ paid =>
  have hk := hgood.key
  obtain ⟨ty, c, t, sel, pr, rcp, rf, fee, ex, act⟩ := a
  cases hk
  cases hs
  cases hact
  simp only [AMap.insert_erase]

/-- What a call that bids does. -/
theorem did_bid {ctx : Ctx} {sender : Addr} {funds : List Coin} {m : Exec} {b : BidArgs} {s s' : State} {ms : List Msg}
    (hm : bidArgs m = some b) (h : execute p ctx sender funds m s = .ok (s', ms)) : ∃ price, funds = [⟨NATIVE, price⟩] ∧
    ((∀ ask, s.asks.get? (b.coll, b.tok) = some ask → (ask.saleType = .fixedPrice → price < ask.price)) ∧
      s' = { s with bids := (s.bids.erase (b.coll, b.tok, sender)).insert (b.coll, b.tok, sender) ⟨b.coll, b.tok, sender, price, b.fee, b.expires⟩ } ∧
      ms = refund ((s.bids.get? (b.coll, b.tok, sender)).map Bid.price) sender ++
        bidHook s ⟨b.coll, b.tok, sender, price, b.fee, b.expires⟩ .create ∨
    ∃ ask sale, s.asks.get? (b.coll, b.tok) = some ask ∧ ask.saleType = .fixedPrice ∧ ask.price = price ∧
      Sold ctx s ask price sender b.finder b.recipient sale ∧
      s' = { s with bids := s.bids.erase (b.coll, b.tok, sender), asks := s.asks.erase (b.coll, b.tok) } ∧
      ms = refund ((s.bids.get? (b.coll, b.tok, sender)).map Bid.price) sender ++ sale) := by
  cases execute_eff h with
  | bidSaved _ b' price hm' _ _ _ hf _ _ _ hask _ =>
    cases Option.some.inj (hm.symm.trans hm')
    exact ⟨price, hf, .inl ⟨fun ask h => (hask ask h).2.2.2.1, rfl, rfl⟩⟩
  | bought _ b' price ask sale hm' _ _ _ hf _ _ ha _ _ _ hty hpr _ hsale =>
    cases Option.some.inj (hm.symm.trans hm')
    exact ⟨price, hf, .inr ⟨ask, sale, ha, hty, hpr, hsale, rfl, rfl⟩⟩
  | _ => cases hm

theorem did_removeBid {ctx : Ctx} {sender : Addr} {funds : List Coin} {coll : Bytes} {tok : Nat} {s s' : State} {ms : List Msg}
    (h : execute p ctx sender funds (.removeBid coll tok) s = .ok (s', ms)) :
    s' = { s with bids := s.bids.erase (coll, tok, sender) } := by
  cases execute_eff h with
  | removeBid => rfl
  | bidSaved _ b _ hm => cases hm
  | bought _ b _ _ _ hm => cases hm

/-- Bids: the state is the same, and so are the messages once the old bid has been returned. This holds for all three calls that bid. -/
theorem C156_bid {ctx1 ctx2 ctx3 : Ctx} {sender : Addr} {f1 f2 : List Coin} {m : Exec} {coll : Addr} {tok : Nat} {old : Bid}
    {s s1 s2 s3 : State} {m1 m2 m3 : List Msg} (hm : bidsOn coll tok m)
    (hb : s.bids.get? (coll, tok, sender) = some old) (hq : ctx2.q.collInfo = ctx3.q.collInfo)
    (h1 : execute p ctx1 sender f1 (.removeBid coll tok) s = .ok (s1, m1))
    (h2 : execute p ctx2 sender f2 m s1 = .ok (s2, m2)) (h3 : execute p ctx3 sender f2 m s = .ok (s3, m3)) :
    s2 = s3 ∧ m3 = .send sender [⟨NATIVE, old.price⟩] :: m2 := by
  obtain ⟨b, hm', hc, ht⟩ : ∃ b, bidArgs m = some b ∧ b.coll = coll ∧ b.tok = tok := by
    cases m with
    | setBid => exact ⟨_, rfl, hm.1, hm.2⟩
    | buyNow => exact ⟨_, rfl, hm.1, hm.2⟩
    | buyFor => exact ⟨_, rfl, hm.1, hm.2⟩
    | _ => cases hm
  subst hc ht
  have e1 := did_removeBid h1
  subst e1
  obtain ⟨price, hf, e2⟩ := did_bid hm' h2
  obtain ⟨price3, hf3, e3⟩ := did_bid hm' h3
  cases hf.symm.trans hf3
  simp only [AMap.get?_erase_self, AMap.erase_erase, Option.map_none] at e2
  rw [hb] at e3
  rcases e2 with ⟨n2, rfl, rfl⟩ | ⟨a, sale, n2, ty, pr, x, rfl, rfl⟩ <;> rcases e3 with ⟨n3, rfl, rfl⟩ | ⟨a3, sale3, n3, ty3, pr3, x3, rfl, rfl⟩
  · exact ⟨rfl, rfl⟩
  · exact absurd (n2 a3 n3 ty3) (pr3 ▸ Nat.lt_irrefl _)
  · exact absurd (n3 a n2 ty) (pr ▸ Nat.lt_irrefl _)
  · cases Option.some.inj (n2.symm.trans n3)
    have x' : Sold ctx2 s a price sender b.finder b.recipient m2 := x.congr rfl rfl
    exact ⟨rfl, by rw [← x'.same hq rfl rfl x3]; rfl⟩

/-- Collection bids: likewise. -/
theorem C156_cbid {ctx1 ctx2 ctx3 : Ctx} {sender : Addr} {f1 f2 : List Coin} {coll : Addr} {expires : Nat} {fee : Option Nat} {old : CBid}
    {s s1 s2 s3 : State} {m1 m2 m3 : List Msg} (hb : s.cbids.get? (coll, sender) = some old) (hr : Reach p me s)
    (h1 : execute p ctx1 sender f1 (.removeCollectionBid coll) s = .ok (s1, m1))
    (h2 : execute p ctx2 sender f2 (.setCollectionBid coll expires fee) s1 = .ok (s2, m2))
    (h3 : execute p ctx3 sender f2 (.setCollectionBid coll expires fee) s = .ok (s3, m3)) :
    s2 = s3 ∧ m3 = .send sender [⟨NATIVE, old.price⟩] :: m2 := by
  have hgood := (Spec.Reach.wf hr).cbids _ _ hb
  cases execute_eff h1 with
  | bidSaved _ b _ hm => cases hm
  | bought _ b _ _ _ hm => cases hm
  | removeCBid _ old' _ _ hb' =>
  cases execute_eff h2 with
  | bidSaved _ b _ hm => cases hm
  | bought _ b _ _ _ hm => cases hm
  | setCBid _ _ _ price _ hf =>
  cases execute_eff h3 with
  | bidSaved _ b _ hm => cases hm
  | bought _ b _ _ _ hm => cases hm
  | setCBid _ _ _ price3 _ hf3 =>
  cases hf.symm.trans hf3
  refine ⟨by simp only [AMap.insert_erase], ?_⟩
  have hbid : old.bidder = sender := by have := hgood.key; cases this; rfl
  simp only [AMap.get?_erase_self, hb, hbid, List.nil_append]
  rfl

open Sample in
/-- bob, who has bid 70, bids 80, or buys for the 101 asked; carol raises a collection bid; alice changes the price: all of it in place or anew. -/
example : (let s := (run (ctx 1001) bob [] (.removeBid coll 1) s6).1
     ok (ctx 1001) bob [] (.removeBid coll 1) s6 = true ∧ ok (ctx 1001) bob (us 80) bidMsg s6 = true ∧
     ok (ctx 1001) bob (us 80) bidMsg s = true ∧ ok (ctx 1001) bob (us 101) buyMsg s6 = true ∧
     ok (ctx 1001) bob (us 101) buyMsg s = true) ∧
    (let s := (run (ctx 1001) carol [] (.removeCollectionBid coll) s6).1
     ok (ctx 1001) carol [] (.removeCollectionBid coll) s6 = true ∧
     ok (ctx 1001) carol (us 60) (.setCollectionBid coll (3000 * NSs) none) s6 = true ∧
     ok (ctx 1001) carol (us 60) (.setCollectionBid coll (3000 * NSs) none) s = true) ∧
    (let s := (run (ctx 1001) alice [] (.removeAsk coll 1) s6).1
     ok (ctx 1001) alice [] (.removeAsk coll 1) s6 = true ∧
     ok (ctx 1001) alice (us 3) (.setAsk .fixedPrice coll 1 ⟨NATIVE, 110⟩ none none (some 500) (2000 * NSs)) s = true ∧
     ok (ctx 1001) alice [] (.updateAskPrice coll 1 ⟨NATIVE, 110⟩) s6 = true) := by
  decide +kernel

end Verif.V1

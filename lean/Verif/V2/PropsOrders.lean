/-
Marketplace v2: properties of the order book (C09, C10, C11, C16, C17, C62).
-/
import Verif.V2.PropsFunds

namespace Verif.V2
open Verif Spec

section
variable {p : Params} {me : Addr} {G : State → Prop} {honest : Addr → Prop}

/-! ### C09 consent -/

theorem upd_other {V : Type} {m : AMap Bytes V} {k id : Bytes} {v w : V} (h : m.get? id = some v) :
    (m.insert k w).get? id = some v ∨ k = id := by
  by_cases e : k = id
  · exact Or.inr e
  · left; rw [AMap.get?_insert, if_neg e]; exact h

theorem del_other {V : Type} {m : AMap Bytes V} {k id : Bytes} {v : V} (h : m.get? id = some v) :
    (m.erase k).get? id = some v ∨ k = id := by
  by_cases e : k = id
  · exact Or.inr e
  · left; rw [AMap.get?_erase, if_neg e]; exact h

/-- Calls without NFT transfer change at most the order they name, which belongs to the caller. -/
theorem quiet_frame {ctx : Ctx} {sender : Addr} {funds : List Coin} {m : Exec} {s s' : State} {msgs : List Msg}
    (hw : WF p s) (e : Eff p ctx sender funds s m s' msgs) (hno : ∀ c t to, Msg.nft c t to ∉ msgs) :
    (∀ id a, s.asks.get? id = some a → s'.asks.get? id = some a ∨ (a.creator = sender ∧ ∃ d, m = .updateAsk id d)) ∧
    (∀ id b, s.bids.get? id = some b → s'.bids.get? id = some b ∨
      (b.creator = sender ∧ (m = .removeBid id ∨ ∃ d, m = .updateBid id d))) ∧
    (∀ id b, s.cbids.get? id = some b → s'.cbids.get? id = some b ∨
      (b.creator = sender ∧ (m = .removeCollectionBid id ∨ ∃ d, m = .updateCollectionBid id d))) := by
  have nosale : ∀ {a : Ask} {mb : MatchingBid} {abb : Bool} (x : SaleParts p ctx a s.config mb abb) (pre post : List Msg),
      msgs = pre ++ x.msgs ++ post → False := by
    intro a mb abb x pre post h
    obtain ⟨pre', e1, _⟩ := x_split x
    refine hno a.collection a.tokenId mb.recipient ?_
    rw [h, e1]; simp
  have noref : ∀ {a : Ask} {mb : MatchingBid} {abb : Bool} (x : SaleParts p ctx a s.config mb abb) (left : List Coin),
      msgs = refund sender left x.msgs → False := by
    intro a mb abb x left h
    obtain ⟨post, e2, _⟩ := refund_eq sender left x.msgs
    exact nosale x [] post (by rw [h, e2]; simp)
  have keepA : ∀ id a, s.asks.get? id = some a → s.asks.get? id = some a ∨ (a.creator = sender ∧ ∃ d, m = .updateAsk id d) :=
    fun _ _ h => Or.inl h
  have keepB : ∀ id b, s.bids.get? id = some b → s.bids.get? id = some b ∨
      (b.creator = sender ∧ (m = .removeBid id ∨ ∃ d, m = .updateBid id d)) := fun _ _ h => Or.inl h
  have keepC : ∀ id b, s.cbids.get? id = some b → s.cbids.get? id = some b ∨
      (b.creator = sender ∧ (m = .removeCollectionBid id ∨ ∃ d, m = .updateCollectionBid id d)) := fun _ _ h => Or.inl h
  cases e with
  | config => exact ⟨keepA, keepB, keepC⟩
  | denom => exact ⟨keepA, keepB, keepC⟩
  | setFee => exact ⟨keepA, keepB, keepC⟩
  | rmFee => exact ⟨keepA, keepB, keepC⟩
  | restAsk coll tok => exact absurd (by simp) (hno coll tok ctx.self)
  | sellAsk m coll tok d pay mb hm hv hd hown htr hpr hf hpos hfee hmb x =>
    exact (nosale x [.send s.config.feeManager [pay]] [] (by simp)).elim
  | updAsk id d a hf hd ha hcr hpr hm =>
    refine ⟨?_, keepB, keepC⟩
    intro id' a' h
    rcases upd_other (k := a.id) (w := { a with details := d }) h with h' | h'
    · exact Or.inl h'
    · rw [(hw.ask ha).1] at h'
      subst h'
      rw [ha] at h; cases h
      exact Or.inr ⟨hcr.symm, d, rfl⟩
  | updSell id d a mb hf hd ha hcr hpr hmb x => exact (nosale x [] [] (by simp)).elim
  | rmAsk id a => exact absurd (by simp) (hno a.collection a.tokenId a.assetRecipient)
  | accAsk id d a fn left hd hn ha hpr hl x => exact (noref x left rfl).elim
  | restBid coll tok d fn left hv hd htr hpr hn hm hl hnew =>
    refine ⟨keepA, ?_, keepC⟩
    intro id' b' h
    rcases upd_other (k := (Bid.new p sender coll tok d ctx.height (nextNonce s)).id)
      (w := Bid.new p sender coll tok d ctx.height (nextNonce s)) h with h' | h'
    · exact Or.inl h'
    · subst h'; rw [hnew] at h; cases h
  | buyBid m coll tok d fn left a hm hv hd htr hpr hn ha hl x => exact (noref x left rfl).elim
  | updBid id d b fn fa left hd hb hcr hpr hn hadd hm hl =>
    refine ⟨keepA, ?_, keepC⟩
    intro id' b' h
    rcases upd_other (k := b.id) (w := { b with details := d }) h with h' | h'
    · exact Or.inl h'
    · rw [(hw.bid hb).1] at h'
      subst h'
      rw [hb] at h; cases h
      exact Or.inr ⟨hcr.symm, Or.inr ⟨d, rfl⟩⟩
  | updBuy id d b a fn fa left hd hb hcr hpr hn hadd ha hl x => exact (noref x left rfl).elim
  | rmBid id b hf hb hcr =>
    refine ⟨keepA, ?_, keepC⟩
    intro id' b' h
    rcases del_other (k := b.id) h with h' | h'
    · exact Or.inl h'
    · rw [(hw.bid hb).1] at h'
      subst h'
      rw [hb] at h; cases h
      exact Or.inr ⟨hcr.symm, Or.inl rfl⟩
  | accBid id d b a hd hb hpr ha x => exact (nosale x [] [] (by simp)).elim
  | restCBid coll d fn left hv hd htr hpr hn hm hl hnew =>
    refine ⟨keepA, keepB, ?_⟩
    intro id' b' h
    rcases upd_other (k := (CBid.new p sender coll d ctx.height (nextNonce s)).id)
      (w := CBid.new p sender coll d ctx.height (nextNonce s)) h with h' | h'
    · exact Or.inl h'
    · subst h'; rw [hnew] at h; cases h
  | buyCBid m coll d fn left a hm hv hd htr hpr hn ha hl x => exact (noref x left rfl).elim
  | updCBid id d b fn fa left hd hb hcr hpr hn hadd hm hl =>
    refine ⟨keepA, keepB, ?_⟩
    intro id' b' h
    rcases upd_other (k := b.id) (w := { b with details := d }) h with h' | h'
    · exact Or.inl h'
    · rw [(hw.cbid hb).1] at h'
      subst h'
      rw [hb] at h; cases h
      exact Or.inr ⟨hcr.symm, Or.inr ⟨d, rfl⟩⟩
  | updCBuy id d b a fn fa left hd hb hcr hpr hn hadd ha hl x => exact (noref x left rfl).elim
  | rmCBid id b hf hb hcr =>
    refine ⟨keepA, keepB, ?_⟩
    intro id' b' h
    rcases del_other (k := b.id) h with h' | h'
    · exact Or.inl h'
    · rw [(hw.cbid hb).1] at h'
      subst h'
      rw [hb] at h; cases h
      exact Or.inr ⟨hcr.symm, Or.inl rfl⟩
  | accCBid id tok d b a hd hb hpr ha x => exact (nosale x [] [] (by simp)).elim

/-- The bid `id` with contents `who`, `det` is filled by this call, at its own price, for its own recipient. -/
def Spec.FillsBid (q : Queries) (s s' : State) (sender : Addr) (funds : List Coin) (m : Exec) (msgs : List Msg)
    (side : Buy → Option Bytes) (id : Bytes) (who : Addr) (det : Details) : Prop :=
  ∃ S B, SellBy s sender m S ∧ BuyBy s sender m B ∧ Nonempty (Sale q funds s s' m msgs S B) ∧
    side B = some id ∧ B.who = who ∧ B.limit = det.price ∧ priceOf m S B = det.price ∧
    B.nftTo = det.recipient.getD who ∧ S.limit.denom = det.price.denom ∧ S.limit.amount ≤ det.price.amount

/-- An open bid is changed or removed by a call only by its creator, or because the call fills it. -/
theorem C09_bids (hlim : 1 ≤ p.maxLimit) (hinj : HashInj p) {ctx : Ctx} {sender : Addr} {funds : List Coin}
    {m : Exec} {s s' : State} {msgs : List Msg} (hr : Reach p me NoWrap s) (hg : NoWrap s)
    (hx : execute p ctx sender funds m s = .ok (s', msgs)) {id : Bytes} {b : Bid} (hb : s.bids.get? id = some b) :
    s'.bids.get? id = some b ∨ (b.creator = sender ∧ (m = .removeBid id ∨ ∃ d, m = .updateBid id d)) ∨
    FillsBid ctx.q s s' sender funds m msgs Buy.bid id b.creator b.details := by
  have hw := Spec.Reach.wf hr
  have e := execute_eff hx
  rcases eff_cases hw hlim e with hno | ⟨i, a, rfl, _, _, _, rfl⟩ | ⟨c, t, d, i, a, fee, rfl, _, _, _, _, _, rfl, _⟩ | ⟨S, B, h⟩
  · rcases (quiet_frame hw e hno).2.1 id b hb with h | h
    · exact Or.inl h
    · exact Or.inr (Or.inl h)
  · exact Or.inl hb
  · exact Or.inl hb
  · by_cases hB : B.bid = some id
    · right
      obtain ⟨hsell, hbuy, hsale, hlimit, _, _, _, _, _, _⟩ := h
      cases hbuy with
      | acceptAsk => cases hB
      | setBid => cases hB
      | buySpecific => cases hB
      | updateBid id' d b' hb' hc =>
        cases hB; rw [hb] at hb'; cases hb'
        exact Or.inl ⟨hc, Or.inr ⟨d, rfl⟩⟩
      | setCBid => cases hB
      | buyCollection => cases hB
      | updateCBid => cases hB
      | acceptBid id' d b' hb' =>
        cases hB; rw [hb] at hb'; cases hb'
        exact Or.inr ⟨S, _, hsell, .acceptBid id d b hb, hsale, rfl, rfl, rfl, rfl, rfl, hlimit⟩
      | acceptCBid => cases hB
      | restBid _ id' b' hm hb' =>
        cases hB; rw [hb] at hb'; cases hb'
        refine Or.inr ⟨S, _, hsell, .restBid m id b hm hb, hsale, rfl, rfl, rfl, ?_, rfl, hlimit⟩
        cases m <;> first | rfl | exact absurd hm (fun h => h)
      | restCBid => cases hB
    · left; rw [h.bids hinj (Spec.Reach.nonce hr) hg id hB]; exact hb

/-- The same for collection bids. -/
theorem C09_cbids (hlim : 1 ≤ p.maxLimit) (hinj : HashInj p) {ctx : Ctx} {sender : Addr} {funds : List Coin}
    {m : Exec} {s s' : State} {msgs : List Msg} (hr : Reach p me NoWrap s) (hg : NoWrap s)
    (hx : execute p ctx sender funds m s = .ok (s', msgs)) {id : Bytes} {b : CBid} (hb : s.cbids.get? id = some b) :
    s'.cbids.get? id = some b ∨
    (b.creator = sender ∧ (m = .removeCollectionBid id ∨ ∃ d, m = .updateCollectionBid id d)) ∨
    FillsBid ctx.q s s' sender funds m msgs Buy.cbid id b.creator b.details := by
  have hw := Spec.Reach.wf hr
  have e := execute_eff hx
  rcases eff_cases hw hlim e with hno | ⟨i, a, rfl, _, _, _, rfl⟩ | ⟨c, t, d, i, a, fee, rfl, _, _, _, _, _, rfl, _⟩ | ⟨S, B, h⟩
  · rcases (quiet_frame hw e hno).2.2 id b hb with h | h
    · exact Or.inl h
    · exact Or.inr (Or.inl h)
  · exact Or.inl hb
  · exact Or.inl hb
  · by_cases hB : B.cbid = some id
    · right
      obtain ⟨hsell, hbuy, hsale, hlimit, _, _, _, _, _, _⟩ := h
      cases hbuy with
      | acceptAsk => cases hB
      | setBid => cases hB
      | buySpecific => cases hB
      | updateBid => cases hB
      | setCBid => cases hB
      | buyCollection => cases hB
      | updateCBid id' d b' hb' hc =>
        cases hB; rw [hb] at hb'; cases hb'
        exact Or.inl ⟨hc, Or.inr ⟨d, rfl⟩⟩
      | acceptBid => cases hB
      | acceptCBid id' tok d b' hb' =>
        cases hB; rw [hb] at hb'; cases hb'
        exact Or.inr ⟨S, _, hsell, .acceptCBid id tok d b hb, hsale, rfl, rfl, rfl, rfl, rfl, hlimit⟩
      | restBid => cases hB
      | restCBid _ id' b' hm hb' =>
        cases hB; rw [hb] at hb'; cases hb'
        refine Or.inr ⟨S, _, hsell, .restCBid m id b hm hb, hsale, rfl, rfl, rfl, ?_, rfl, hlimit⟩
        cases m <;> first | rfl | exact absurd hm (fun h => h)
    · left; rw [h.cbids hinj (Spec.Reach.nonce hr) hg id hB]; exact hb

/-- The ask `a` with id `id` is filled by this call: by its creator's own call, or at its own price. -/
def Spec.FillsAsk (q : Queries) (s s' : State) (sender : Addr) (funds : List Coin) (m : Exec) (msgs : List Msg)
    (id : Bytes) (a : Ask) : Prop :=
  ∃ S B, SellBy s sender m S ∧ BuyBy s sender m B ∧ Nonempty (Sale q funds s s' m msgs S B) ∧
    S.ask = some id ∧ S.who = a.creator ∧ S.coll = a.collection ∧ S.tok = a.tokenId ∧
    (a.creator = sender ∨ (S.limit = a.details.price ∧ priceOf m S B = a.details.price ∧
      S.payTo = a.details.recipient.getD a.creator))

/-- What a call can do to an open ask: nothing; its creator changes or withdraws it; it is filled. The last
case (somebody lists or sells the same token anew) is excluded below for tokens the contract holds. -/
theorem ask_frame (hlim : 1 ≤ p.maxLimit) {ctx : Ctx} {sender : Addr} {funds : List Coin}
    {m : Exec} {s s' : State} {msgs : List Msg} (hr : Reach p me G s)
    (hx : execute p ctx sender funds m s = .ok (s', msgs)) {id : Bytes} {a : Ask} (ha : s.asks.get? id = some a) :
    s'.asks.get? id = some a ∨ (a.creator = sender ∧ (m = .removeAsk id ∨ ∃ d, m = .updateAsk id d)) ∨
    FillsAsk ctx.q s s' sender funds m msgs id a ∨
    ∃ c t, id = askId p c t ∧ p.valid c = true ∧ ∀ o, ctx.q.ownerOf c t = some o → o = sender := by
  have hw := Spec.Reach.wf hr
  have e := execute_eff hx
  rcases eff_cases hw hlim e with hno | ⟨i, a', rfl, ha', hc, _, rfl⟩ | ⟨c, t, d, i, a', fee, rfl, _, _, _, _, _, rfl, hnew⟩ | ⟨S, B, h⟩
  · rcases (quiet_frame hw e hno).1 id a ha with h | ⟨h1, h2⟩
    · exact Or.inl h
    · exact Or.inr (Or.inl ⟨h1, Or.inr h2⟩)
  · rcases del_other (k := i) ha with h | rfl
    · exact Or.inl h
    · rw [ha] at ha'; cases ha'
      exact Or.inr (Or.inl ⟨hc, Or.inl rfl⟩)
  · rcases upd_other (k := i) (w := a') ha with h | rfl
    · exact Or.inl h
    · rw [ha] at hnew; cases hnew
  · by_cases hS : S.ask = some id
    · right
      obtain ⟨hsell, hbuy, hsale, hlimit, _, _, _, _, _, _⟩ := h
      cases hsell with
      | setAsk => cases hS
      | sellNft => cases hS
      | updateAsk id' d a' ha' hc =>
        cases hS; rw [ha] at ha'; cases ha'
        exact Or.inl ⟨hc, Or.inr ⟨d, rfl⟩⟩
      | acceptBid => cases hS
      | acceptBidListed id' d aid a' ha' hc =>
        cases hS; rw [ha] at ha'; cases ha'
        exact Or.inr (Or.inl ⟨_, B, .acceptBidListed id' d id a ha hc, hbuy, hsale, rfl, hc.symm, rfl, rfl, Or.inl hc⟩)
      | acceptCBid => cases hS
      | acceptCBidListed id' tok d aid a' ha' hc =>
        cases hS; rw [ha] at ha'; cases ha'
        exact Or.inr (Or.inl ⟨_, B, .acceptCBidListed id' tok d id a ha hc, hbuy, hsale, rfl, hc.symm, rfl, rfl, Or.inl hc⟩)
      | resting _ aid a' hm ha' hid =>
        cases hS; rw [ha] at ha'; cases ha'
        refine Or.inr (Or.inl ⟨_, B, .resting m id a hm ha hid, hbuy, hsale, rfl, rfl, rfl, rfl, Or.inr ⟨rfl, ?_, rfl⟩⟩)
        cases m <;> first | rfl | exact absurd hm (fun h => h)
    · rcases h.asks id hS with h' | ⟨_, h1, h2, h3⟩
      · left; rw [h']; exact ha
      · exact Or.inr (Or.inr (Or.inr ⟨_, _, h1, h2, h3⟩))

/-- An open ask whose token the collection reports as held by the marketplace is changed or removed by a call only
by its creator, or because the call fills it. -/
theorem C09_asks (hlim : 1 ≤ p.maxLimit) (hinj : HashInj p) (hpf : PrefixFree p) {ctx : Ctx} {sender : Addr}
    {funds : List Coin} {m : Exec} {s s' : State} {msgs : List Msg} (hr : Reach p me G s) (hne : sender ≠ me)
    (hx : execute p ctx sender funds m s = .ok (s', msgs)) {id : Bytes} {a : Ask} (ha : s.asks.get? id = some a)
    (hown : ctx.q.ownerOf a.collection a.tokenId = some me) :
    s'.asks.get? id = some a ∨ (a.creator = sender ∧ (m = .removeAsk id ∨ ∃ d, m = .updateAsk id d)) ∨
    FillsAsk ctx.q s s' sender funds m msgs id a := by
  rcases ask_frame hlim hr hx ha with h | h | h | ⟨c, t, h1, h2, h3⟩
  · exact Or.inl h
  · exact Or.inr (Or.inl h)
  · exact Or.inr (Or.inr h)
  · exfalso
    obtain ⟨_, h4, h5, _⟩ := (Spec.Reach.wf hr).ask ha
    obtain ⟨rfl, rfl⟩ := askId_inj hinj hpf h5 h2 (h4.symm.trans h1)
    exact hne (h3 me hown).symm

/-- In every run, at every point where a call can be made, an ask on a conforming collection is changed or removed
only by its creator or by being filled. -/
theorem C09_asks_run (hlim : 1 ≤ p.maxLimit) (hinj : HashInj p) (hpf : PrefixFree p) {w : World State}
    {stack : List Msg} (h : Run p me honest (w, stack)) (hc : (sys p me honest).control stack) {q : Queries}
    (hq : (sys p me honest).queriesOk w q) {sender : Addr} {funds : List Coin} {m : Exec} {s' : State}
    {msgs : List Msg} (hne : sender ≠ me)
    (hx : execute p ((sys p me honest).ctx w q) sender funds m w.st = .ok (s', msgs))
    {id : Bytes} {a : Ask} (ha : w.st.asks.get? id = some a) (hh : honest a.collection) :
    s'.asks.get? id = some a ∨ (a.creator = sender ∧ (m = .removeAsk id ∨ ∃ d, m = .updateAsk id d)) ∨
    FillsAsk q w.st s' sender funds m msgs id a := by
  refine C09_asks (ctx := (sys p me honest).ctx w q) hlim hinj hpf (Spec.Run.reach h) hne hx ha ?_
  exact (hq _ _ hh).trans (C07_custody_nested hlim h hc ha hh)

namespace Sample
example := C09_bids (by decide) hashInj r4 (by decide +kernel) trap_ok (id := bid)
  (b := Bid.new P bob coll tok (det' 80 carol) 7 1) (by decide +kernel)
/-- bob's bid is filled in that call, carol's stays -/
example : ((run (ctx (some self)) alice [⟨ust, 7⟩] (.acceptBid bid (det 80)) s4).1.bids.get? bid) = none ∧
  (run (ctx (some self)) alice [⟨ust, 7⟩] (.acceptBid bid (det 80)) s4).1.cbids.get? cid =
    some (CBid.new P carol coll (det 90) 7 2) := by decide +kernel
example := C09_cbids (by decide) hashInj r4 (by decide +kernel) raise_ok (id := cid)
  (b := CBid.new P carol coll (det 90) 7 2) (by decide +kernel)
example := C09_asks (by decide) hashInj prefixFree r4 (by decide) trap_ok (id := aid)
  (a := Ask.new P alice coll tok (det 100)) (by decide +kernel) (by decide +kernel)
end Sample

/-! ### C62 asks on collections with unreliable ownership answers -/

/-- FULL STATEMENT of C62: `C09_asks` without the hypothesis on the ownership answer. -/
def C62_statement : Prop := ∀ (p : Params) (me : Addr), 1 ≤ p.maxLimit → HashInj p → PrefixFree p → NoSlash p →
  ∀ (ctx : Ctx) (sender : Addr) (funds : List Coin) (m : Exec) (s s' : State) (msgs : List Msg) (id : Bytes) (a : Ask),
  Reach p me NoWrap s → NoWrap s → ctx.self = me → sender ≠ me →
  execute p ctx sender funds m s = .ok (s', msgs) → s.asks.get? id = some a →
  s'.asks.get? id = some a ∨ (a.creator = sender ∧ (m = .removeAsk id ∨ ∃ d, m = .updateAsk id d)) ∨
  FillsAsk ctx.q s s' sender funds m msgs id a

namespace Sample
/-- the collection does not answer the ownership query: carol sells alice's token to bob -/
theorem steal_ok : execute P (ctx none) carol [⟨ust, 5⟩] (.sellNft coll tok (det 50)) s4 =
    .ok (run (ctx none) carol [⟨ust, 5⟩] (.sellNft coll tok (det 50)) s4) := run_eq (by decide +kernel)
end Sample

/-- VIOLATED: when the ownership query fails, anybody can sell a listed token; the listing disappears. -/
theorem C62_violated : ¬ C62_statement := by
  intro h
  rcases h Sample.P Sample.self (by decide) Sample.hashInj Sample.prefixFree Sample.noSlash _ _ _ _ _ _ _ Sample.aid
    (Ask.new Sample.P Sample.alice Sample.coll Sample.tok (Sample.det 100)) Sample.r4
    (by decide +kernel) rfl (by decide) Sample.steal_ok (by decide +kernel) with h | ⟨h, _⟩ | ⟨S, B, h, _, _, h2, _⟩
  · revert h; decide +kernel
  · revert h; decide +kernel
  · cases h with
    | sellNft => cases h2
    | resting _ _ _ hm => exact hm

/-- What holds: the answer of the collection decides; if it says the marketplace holds the token, the ask is safe,
and otherwise only an account the collection calls the owner (or anybody, if it does not answer) can remove it. -/
theorem C62_partial (hlim : 1 ≤ p.maxLimit) (hinj : HashInj p) (hpf : PrefixFree p) {ctx : Ctx} {sender : Addr}
    {funds : List Coin} {m : Exec} {s s' : State} {msgs : List Msg} (hr : Reach p me G s)
    (hx : execute p ctx sender funds m s = .ok (s', msgs)) {id : Bytes} {a : Ask} (ha : s.asks.get? id = some a) :
    s'.asks.get? id = some a ∨ (a.creator = sender ∧ (m = .removeAsk id ∨ ∃ d, m = .updateAsk id d)) ∨
    FillsAsk ctx.q s s' sender funds m msgs id a ∨
    ctx.q.ownerOf a.collection a.tokenId = some sender ∨ ctx.q.ownerOf a.collection a.tokenId = none := by
  rcases ask_frame hlim hr hx ha with h | h | h | ⟨c, t, h1, h2, h3⟩
  · exact Or.inl h
  · exact Or.inr (Or.inl h)
  · exact Or.inr (Or.inr (Or.inl h))
  · right; right; right
    obtain ⟨_, h4, h5, _⟩ := (Spec.Reach.wf hr).ask ha
    obtain ⟨rfl, rfl⟩ := askId_inj hinj hpf h5 h2 (h4.symm.trans h1)
    cases ho : ctx.q.ownerOf a.collection a.tokenId with
    | none => exact Or.inr rfl
    | some o => rw [h3 o ho]; exact Or.inl rfl

example := C62_partial (by decide) Sample.hashInj Sample.prefixFree Sample.r4 Sample.steal_ok (id := Sample.aid)
  (a := Ask.new Sample.P Sample.alice Sample.coll Sample.tok (Sample.det 100)) (by decide +kernel)

/-! ### C10 configuration -/

/-- Configuration, collection denoms and listing fees change only in calls by the contract admin. -/
theorem C10_admin {ctx : Ctx} {sender : Addr} {funds : List Coin} {m : Exec} {s s' : State} {msgs : List Msg}
    (hx : execute p ctx sender funds m s = .ok (s', msgs))
    (hc : s'.config ≠ s.config ∨ s'.collectionDenoms ≠ s.collectionDenoms ∨ s'.listingFees ≠ s.listingFees) :
    ctx.q.admin = some (some sender) := by
  have adm : ∀ {u : Unit}, onlyContractAdmin ctx sender = .ok u → ctx.q.admin = some (some sender) := by
    intro u h
    unfold onlyContractAdmin at h
    split at h
    · cases h
    · cases h
    case h_3 a ha => rw [ensure_ok] at h; rw [ha, h]
  have no : ∀ {P : Prop}, s.config ≠ s.config ∨ s.collectionDenoms ≠ s.collectionDenoms ∨ s.listingFees ≠ s.listingFees → P := by
    intro P h; rcases h with h | h | h <;> exact absurd rfl h
  cases execute_eff hx with
  | config c hadm => exact adm hadm
  | denom coll den hadm => exact adm hadm
  | setFee fee hadm => exact adm hadm
  | rmFee den hadm => exact adm hadm
  | sellAsk => simp only [afterSale_config, afterSale_denoms, afterSale_fees] at hc; exact no hc
  | updSell => simp only [afterSale_config, afterSale_denoms, afterSale_fees] at hc; exact no hc
  | accAsk => simp only [afterSale_config, afterSale_denoms, afterSale_fees] at hc; exact no hc
  | buyBid => simp only [afterSale_config, afterSale_denoms, afterSale_fees] at hc; exact no hc
  | updBuy => simp only [afterSale_config, afterSale_denoms, afterSale_fees] at hc; exact no hc
  | accBid => simp only [afterSale_config, afterSale_denoms, afterSale_fees] at hc; exact no hc
  | buyCBid => simp only [afterSale_config, afterSale_denoms, afterSale_fees] at hc; exact no hc
  | updCBuy => simp only [afterSale_config, afterSale_denoms, afterSale_fees] at hc; exact no hc
  | accCBid => simp only [afterSale_config, afterSale_denoms, afterSale_fees] at hc; exact no hc
  | _ => exact no hc

namespace Sample
theorem fee_ok : execute P (ctx none) admin [] (.setListingFee ⟨ust, 5⟩) s0 =
    .ok (run (ctx none) admin [] (.setListingFee ⟨ust, 5⟩) s0) := run_eq (by decide +kernel)
example := C10_admin fee_ok (Or.inr (Or.inr (by
  intro h
  have := congrArg (fun m => m.get? ust) h
  revert this; decide +kernel)))
end Sample

/-! ### C11 the book is not crossed -/

/-- No open bid could be filled by an open ask. -/
def Spec.NotCrossed (s : State) : Prop :=
  ∀ aid a, s.asks.get? aid = some a →
    (∀ id b, s.bids.get? id = some b → b.collection = a.collection → b.tokenId = a.tokenId →
      b.details.price.denom = a.details.price.denom → b.details.price.amount < a.details.price.amount) ∧
    (∀ id b, s.cbids.get? id = some b → b.collection = a.collection →
      b.details.price.denom = a.details.price.denom → b.details.price.amount < a.details.price.amount)

theorem crossed_shrink {s s' : State} (h : NotCrossed s) (hs : Shrink s s') : NotCrossed s' :=
  fun aid a ha => ⟨fun id b hb => (h aid a (hs.ask ha)).1 id b (hs.bid hb),
    fun id b hb => (h aid a (hs.ask ha)).2 id b (hs.cbid hb)⟩

theorem crossed_ask (hlim : 1 ≤ p.maxLimit) {s : State} (h : NotCrossed s) {k : Bytes} {a : Ask}
    (hm : a.matchWithBid p s = none) : NotCrossed { s with asks := s.asks.insert k a } := by
  intro aid a' ha
  simp only [AMap.get?_insert] at ha
  split at ha
  case isTrue =>
    cases ha
    obtain ⟨h1, h2⟩ := matchWithBid_none hlim hm
    exact ⟨fun id b hb e1 e2 e3 => h1 id b hb (by rw [e1, e2]) e3, fun id b hb e1 e3 => h2 id b hb e1 e3⟩
  case isFalse => exact h aid a' ha

theorem crossed_bid {s : State} (hw : WF p s) (h : NotCrossed s) {k : Bytes} {b : Bid} {n : Nat}
    (hm : b.matchWithAsk p s = none) : NotCrossed { s with nonce := n, bids := s.bids.insert k b } := by
  intro aid a ha
  refine ⟨?_, (h aid a ha).2⟩
  intro id b' hb e1 e2 e3
  simp only [AMap.get?_insert] at hb
  split at hb
  case isTrue =>
    cases hb
    have := (hw.ask ha).2.1
    exact bidMatch_none hm a (by rw [e1, e2, ← this]; exact ha) e3.symm
  case isFalse => exact (h aid a ha).1 id b' hb e1 e2 e3

theorem crossed_cbid (hlim : 1 ≤ p.maxLimit) {s : State} (h : NotCrossed s) {k : Bytes} {b : CBid} {n : Nat}
    (hm : b.matchWithAsk p s = .ok none) : NotCrossed { s with nonce := n, cbids := s.cbids.insert k b } := by
  intro aid a ha
  refine ⟨(h aid a ha).1, ?_⟩
  intro id b' hb e1 e3
  simp only [AMap.get?_insert] at hb
  split at hb
  case isTrue =>
    cases hb
    exact cbidMatch_none hlim hm aid a ha e1.symm e3.symm
  case isFalse => exact (h aid a ha).2 id b' hb e1 e3

/-- In every reachable state no open bid or collection bid reaches the price of an open ask it could fill. -/
theorem C11_not_crossed (hlim : 1 ≤ p.maxLimit) {s : State} (hr : Reach p me G s) : NotCrossed s := by
  induction hr with
  | init h =>
    intro aid a ha
    rw [(init_empty h).1, empty_get] at ha; cases ha
  | @call s s' ctx sender funds m msgs hr _ _ _ hx ih =>
    have hw := Spec.Reach.wf hr
    cases execute_eff hx with
    | config => exact ih
    | denom => exact ih
    | setFee => exact ih
    | rmFee => exact ih
    | restAsk coll tok d pay hv hd hown htr hpr hf hpos hfee hm => exact crossed_ask hlim ih hm
    | sellAsk => exact crossed_shrink ih (afterSale_shrink _ _ _)
    | updAsk id d a hf hd ha hcr hpr hm => exact crossed_ask hlim ih hm
    | updSell => exact crossed_shrink ih (afterSale_shrink _ _ _)
    | rmAsk => exact crossed_shrink ih ⟨erase_sub, id, id⟩
    | accAsk => exact crossed_shrink ih (afterSale_bump_shrink _ _ _)
    | restBid coll tok d fn left hv hd htr hpr hn hm => exact crossed_bid hw ih hm
    | buyBid => exact crossed_shrink ih (afterSale_bump_shrink _ _ _)
    | updBid id d b fn fa left hd hb hcr hpr hn hadd hm => exact crossed_bid (n := s.nonce) hw ih hm
    | updBuy => exact crossed_shrink ih (afterSale_shrink _ _ _)
    | rmBid => exact crossed_shrink ih ⟨id, erase_sub, id⟩
    | accBid => exact crossed_shrink ih (afterSale_shrink _ _ _)
    | restCBid coll d fn left hv hd htr hpr hn hm => exact crossed_cbid hlim ih hm
    | buyCBid => exact crossed_shrink ih (afterSale_bump_shrink _ _ _)
    | updCBid id d b fn fa left hd hb hcr hpr hn hadd hm => exact crossed_cbid (n := s.nonce) hlim ih hm
    | updCBuy => exact crossed_shrink ih (afterSale_shrink _ _ _)
    | rmCBid => exact crossed_shrink ih ⟨id, id, erase_sub⟩
    | accCBid => exact crossed_shrink ih (afterSale_shrink _ _ _)

/-- The sample book has an ask at 100, a bid at 80 and a collection bid at 90. -/
example := C11_not_crossed (by decide) Sample.r4

/-! ### C16 identifiers -/

/-- Distinct tokens have distinct ask ids. -/
theorem C16_ask_ids (hinj : HashInj p) (hpf : PrefixFree p) {a b t u : Bytes} (ha : p.valid a = true)
    (hb : p.valid b = true) (h : (Ask.new p me a t ⟨⟨[], 0⟩, none, none⟩).id = (Ask.new p me b u ⟨⟨[], 0⟩, none, none⟩).id) :
    a = b ∧ t = u := askId_inj hinj hpf ha hb h

/-- At most one open ask per token. -/
theorem C16_one_ask {s : State} (hr : Reach p me G s) {i j : Bytes} {a b : Ask} (ha : s.asks.get? i = some a)
    (hb : s.asks.get? j = some b) (hc : a.collection = b.collection) (ht : a.tokenId = b.tokenId) : i = j ∧ a = b := by
  have hw := Spec.Reach.wf hr
  have e : i = j := by rw [(hw.ask ha).2.1, (hw.ask hb).2.1, hc, ht]
  subst e
  rw [ha] at hb; cases hb
  exact ⟨rfl, rfl⟩

/-- A bid created by the next call, by whomever and whatever it is on, has an id that is not in use. -/
theorem C16_fresh (hinj : HashInj p) {s : State} (hr : Reach p me NoWrap s) (hg : NoWrap s) (sender coll tok : Bytes)
    (d : Details) (height : Nat) :
    s.bids.get? (Bid.new p sender coll tok d height (s.nonce + 1)).id = none ∧
    s.cbids.get? (CBid.new p sender coll d height (s.nonce + 1)).id = none := by
  have h := Spec.Reach.nonce hr
  have h1 := fresh_bid h hinj hg sender coll tok d height
  have h2 := fresh_cbid h hinj hg sender coll d height
  rw [nextNonce_eq hg] at h1 h2
  exact ⟨h1, h2⟩

/-- An id denotes the same order as long as it is open: creator, collection and token never change. -/
theorem C16_stable {ctx : Ctx} {sender : Addr} {funds : List Coin}
    {m : Exec} {s s' : State} {msgs : List Msg} (hr : Reach p me G s)
    (hx : execute p ctx sender funds m s = .ok (s', msgs)) :
    (∀ id a a', s.asks.get? id = some a → s'.asks.get? id = some a' → a' = { a with details := a'.details }) ∧
    (∀ id b b', s.bids.get? id = some b → s'.bids.get? id = some b' → b' = { b with details := b'.details }) ∧
    (∀ id b b', s.cbids.get? id = some b → s'.cbids.get? id = some b' → b' = { b with details := b'.details }) := by
  have hw := Spec.Reach.wf hr
  have keepA : ∀ id a a', s.asks.get? id = some a → s.asks.get? id = some a' → a' = { a with details := a'.details } := by
    intro id a a' h1 h2; rw [h1] at h2; cases h2; rfl
  have keepB : ∀ id a a', s.bids.get? id = some a → s.bids.get? id = some a' → a' = { a with details := a'.details } := by
    intro id a a' h1 h2; rw [h1] at h2; cases h2; rfl
  have keepC : ∀ id a a', s.cbids.get? id = some a → s.cbids.get? id = some a' → a' = { a with details := a'.details } := by
    intro id a a' h1 h2; rw [h1] at h2; cases h2; rfl
  have sh : Shrink s s' → (∀ id a a', s.asks.get? id = some a → s'.asks.get? id = some a' → a' = { a with details := a'.details }) ∧
    (∀ id b b', s.bids.get? id = some b → s'.bids.get? id = some b' → b' = { b with details := b'.details }) ∧
    (∀ id b b', s.cbids.get? id = some b → s'.cbids.get? id = some b' → b' = { b with details := b'.details }) :=
    fun h => ⟨fun id a a' h1 h2 => keepA id a a' h1 (h.ask h2), fun id a a' h1 h2 => keepB id a a' h1 (h.bid h2),
      fun id a a' h1 h2 => keepC id a a' h1 (h.cbid h2)⟩
  cases execute_eff hx with
  | config => exact ⟨keepA, keepB, keepC⟩
  | denom => exact ⟨keepA, keepB, keepC⟩
  | setFee => exact ⟨keepA, keepB, keepC⟩
  | rmFee => exact ⟨keepA, keepB, keepC⟩
  | restAsk coll tok d pay hv hd hown htr hpr hf hpos hfee hm hnew =>
    refine ⟨?_, keepB, keepC⟩
    intro id a a' h1 h2
    simp only [AMap.get?_insert] at h2
    split at h2
    case isTrue e => subst e; rw [hnew] at h1; cases h1
    case isFalse => exact keepA id a a' h1 h2
  | sellAsk => exact sh (afterSale_shrink _ _ _)
  | updAsk id d a hf hd ha hcr hpr hm =>
    refine ⟨?_, keepB, keepC⟩
    intro id' a0 a' h1 h2
    simp only [AMap.get?_insert] at h2
    split at h2
    case isTrue e => rw [(hw.ask ha).1] at e; subst e; rw [ha] at h1; cases h1; cases h2; rfl
    case isFalse => exact keepA id' a0 a' h1 h2
  | updSell => exact sh (afterSale_shrink _ _ _)
  | rmAsk => exact sh ⟨erase_sub, id, id⟩
  | accAsk => exact sh (afterSale_bump_shrink _ _ _)
  | restBid coll tok d fn left hv hd htr hpr hnn hm hl hnew =>
    refine ⟨keepA, ?_, keepC⟩
    intro id a a' h1 h2
    simp only [AMap.get?_insert] at h2
    split at h2
    case isTrue e => subst e; rw [hnew] at h1; cases h1
    case isFalse => exact keepB id a a' h1 h2
  | buyBid => exact sh (afterSale_bump_shrink _ _ _)
  | updBid id d b fn fa left hd hb hcr hpr hn hadd hm =>
    refine ⟨keepA, ?_, keepC⟩
    intro id' a0 a' h1 h2
    simp only [AMap.get?_insert] at h2
    split at h2
    case isTrue e => rw [(hw.bid hb).1] at e; subst e; rw [hb] at h1; cases h1; cases h2; rfl
    case isFalse => exact keepB id' a0 a' h1 h2
  | updBuy => exact sh (afterSale_shrink _ _ _)
  | rmBid => exact sh ⟨id, erase_sub, id⟩
  | accBid => exact sh (afterSale_shrink _ _ _)
  | restCBid coll d fn left hv hd htr hpr hn hm hl hnew =>
    refine ⟨keepA, keepB, ?_⟩
    intro id a a' h1 h2
    simp only [AMap.get?_insert] at h2
    split at h2
    case isTrue e => subst e; rw [hnew] at h1; cases h1
    case isFalse => exact keepC id a a' h1 h2
  | buyCBid => exact sh (afterSale_bump_shrink _ _ _)
  | updCBid id d b fn fa left hd hb hcr hpr hn hadd hm =>
    refine ⟨keepA, keepB, ?_⟩
    intro id' a0 a' h1 h2
    simp only [AMap.get?_insert] at h2
    split at h2
    case isTrue e => rw [(hw.cbid hb).1] at e; subst e; rw [hb] at h1; cases h1; cases h2; rfl
    case isFalse => exact keepC id' a0 a' h1 h2
  | updCBuy => exact sh (afterSale_shrink _ _ _)
  | rmCBid => exact sh ⟨id, id, erase_sub⟩
  | accCBid => exact sh (afterSale_shrink _ _ _)

namespace Sample
example := C16_ask_ids (me := alice) hashInj prefixFree (a := coll) (b := coll) (t := tok) (u := tok) (by decide) (by decide) rfl
example := C16_one_ask r4 (i := aid) (j := aid) (a := Ask.new P alice coll tok (det 100))
  (b := Ask.new P alice coll tok (det 100)) (by decide +kernel) (by decide +kernel) rfl rfl
example := C16_fresh hashInj r4 (by decide +kernel) bob coll tok (det 1) 7
example := C16_stable r4 raise_ok
end Sample

/-! ### C17 configuration bounds -/

/-- In every reachable state the stored fee rates are within bounds. -/
theorem C17_config {s : State} (hr : Reach p me G s) :
    s.config.protocolFeeBps < 10000 ∧ s.config.makerRewardBps + s.config.takerRewardBps < 10000 :=
  (Spec.Reach.wf hr).cfg

example := C17_config Sample.r4

end
end Verif.V2

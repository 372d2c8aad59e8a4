/-
Marketplace v2: what the settings at the time of the sale mean to orders placed before (C150, C151).
-/
import Verif.V2.PropsDepth

namespace Verif.V2
open Verif Spec

/-! ### Specification -/

/-- What the seller of a listing gets when it is bought at its price, under the given settings, by a buyer without a finder. -/
def Spec.proceeds (q : Queries) (c : Config) (a : Ask) : Nat :=
  a.details.price.amount -
    charged a.details.price.amount (feeShares c a.details.finder none ++ royaltyShare q c a.collection)

/-- The account to be paid for a listing. -/
def Spec.payee (a : Ask) : Addr := a.details.recipient.getD a.creator

/-- A listing that nobody touches is later sold for at least what it would have brought before, up to the rounding of the
finders' parts. -/
def C150_statement : Prop :=
  ∀ (p : Params) (me : Addr) (honest : Addr → Prop), 1 ≤ p.maxLimit → HashInj p → PrefixFree p → NoSlash p →
  ∀ (w0 w : World State), Run p me honest (w0, []) → (sys p me honest).Steps (w0, []) (w, []) →
  ∀ (id : Bytes) (a : Ask), w0.st.asks.get? id = some a → w.st.asks.get? id = some a →
  ∀ (q : Queries) (sender : Addr) (funds : List Coin) (m : Exec) (s' : State) (msgs : List Msg) (to : Addr), BuyerCall m →
    execute p ((sys p me honest).ctx w q) sender funds m w.st = .ok (s', msgs) → .nft a.collection a.tokenId to ∈ msgs →
    proceeds q w0.st.config a ≤ gets (payee a) a.details.price.denom msgs + 3

variable {p : Params} {me : Addr} {honest : Addr → Prop} {G : State → Prop}

theorem received_ge {price : Nat} {seller : Addr} {fs pays : List (Addr × Nat)} {dn : Denom}
    (h : split price seller fs = some pays) : price - charged price fs ≤ received seller dn dn pays := by
  obtain ⟨hle, rfl⟩ := split_charged h
  unfold received
  rw [if_pos rfl, List.filter_append, List.map_append, List.sum_append]
  split
  · omega
  · simp

theorem buyer_not_lists {m : Exec} (h : BuyerCall m) : Lists m = false ∧ SellerCall m = false := by
  cases m <;> first | exact absurd h (fun h => h) | exact ⟨rfl, rfl⟩

/-- A purchase of a listing is a sale by the terms of the listing. -/
theorem purchase_sale (hr : Reach p me G s) (hlim : 1 ≤ p.maxLimit) {ctx : Ctx} (hself : ctx.self = me) {sender : Addr} {funds : List Coin}
    {m : Exec} {s' : State} {msgs : List Msg} (hm : BuyerCall m) (hx : execute p ctx sender funds m s = .ok (s', msgs)) {id : Bytes} {a : Ask}
    (ha : s.asks.get? id = some a) {to : Addr} (hn : .nft a.collection a.tokenId to ∈ msgs) :
    ∃ B, BuyBy s sender m B ∧ a.details.price.denom = B.limit.denom ∧ Nonempty (Sale ctx.q funds s s' m msgs
      ⟨some id, a.collection, a.tokenId, a.creator, a.details.price, payee a, a.details.finder⟩ B) := by
  have ht : Trades m s' me msgs := by
    refine ⟨_, _, _, hn, ?_, ?_⟩
    · rintro id rfl; exact hm
    · rintro ⟨_, _, _, _, rfl, _⟩; exact hm
  obtain ⟨S, B, h⟩ := trade_main hr hlim hself hx ht
  obtain ⟨x⟩ := h.sale
  refine ⟨B, h.buy, ?_⟩
  have h1 := h.sell
  have hd := h.limit.1
  have hw := hr.wf
  cases h1 with
  | resting _ aid a' _ ha' _ =>
    have hx := (sale_nfts x a.collection a.tokenId to).mp hn
    have e1 := (hw.ask ha).2.1
    have e2 := (hw.ask ha').2.1
    have e3 : aid = id := by rw [e2, e1]; rw [hx.1, hx.2.1]
    subst e3
    rw [ha] at ha'
    cases ha'
    exact ⟨hd, ⟨x⟩⟩
  | setAsk => exact hm.elim
  | sellNft => exact hm.elim
  | updateAsk => exact hm.elim
  | acceptBid => exact hm.elim
  | acceptBidListed => exact hm.elim
  | acceptCBid => exact hm.elim
  | acceptCBidListed => exact hm.elim

/-! ### C150 -/

/-- A purchase pays the seller what the settings in force at that time leave, up to 3 base units for the finder of the buyer. -/
theorem C150_partial_now (hr : Reach p me G s) (hlim : 1 ≤ p.maxLimit) {ctx : Ctx} (hself : ctx.self = me) {sender : Addr}
    {funds : List Coin} {m : Exec} {s' : State} {msgs : List Msg} (hm : BuyerCall m)
    (hx : execute p ctx sender funds m s = .ok (s', msgs)) {id : Bytes} {a : Ask}
    (ha : s.asks.get? id = some a) {to : Addr} (hn : .nft a.collection a.tokenId to ∈ msgs) :
    proceeds ctx.q s.config a ≤ gets (payee a) a.details.price.denom msgs + 3 := by
  obtain ⟨B, _, _, ⟨x⟩⟩ := purchase_sale hr hlim hself hm hx ha hn
  obtain ⟨hl, hsc⟩ := buyer_not_lists hm
  have hw := hr.wf
  have hpays := x.hpays
  have hp : ∀ S B, priceOf m S B = S.limit := by intro S B; simp [priceOf, hsc]
  have hmk : ∀ S B, makerOf m S B = S.finder := by intro S B; simp [makerOf, hsc]
  have htk : ∀ S B, takerOf m S B = B.finder := by intro S B; simp [takerOf, hsc]
  rw [sale_gets x hl, hp]
  dsimp only
  simp only [hp, hmk, htk] at hpays
  have h1 := received_ge (dn := a.details.price.denom) hpays
  have h2 := (split_charged hpays).1
  unfold proceeds
  have h3 := charged_more (price := a.details.price.amount) (price2 := a.details.price.amount)
    (fs := feeShares s.config a.details.finder none ++ royaltyShare ctx.q s.config a.collection)
    (fs2 := feeShares s.config a.details.finder B.finder ++ royaltyShare ctx.q s.config a.collection) (Nat.le_refl _)
    (hw.ask ha).2.2.2 (by
      rw [List.map_append, List.sum_append, List.map_append, List.sum_append, feeShares_sum hw.cfg.2, feeShares_sum hw.cfg.2]) (by
      unfold feeShares royaltyShare
      simp only [List.length_append, List.length_map, List.length_cons, List.length_nil]
      have h1 : ∀ o : Option Addr, o.toList.length ≤ 1 := by intro o; cases o <;> simp
      have := h1 a.details.finder
      have := h1 B.finder
      split
      · simp only [List.length_cons, List.length_nil]; omega
      · simp only [List.length_nil]; omega)
  by_cases hc : charged a.details.price.amount (feeShares s.config a.details.finder none ++ royaltyShare ctx.q s.config a.collection) ≤
      a.details.price.amount
  · have := h3 hc
    omega
  · omega

/-- What holds: as long as the admin leaves the settings alone, the listing brings what it would have brought when it was placed,
up to 3 base units. Missing: the admin can change the settings, up to a protocol fee of 99.99 % and with it the rest of the
price, at any time and with effect on all listings. -/
theorem C150_partial (hlim : 1 ≤ p.maxLimit) {w0 w : World State} (h0 : Run p me honest (w0, []))
    (hs : (sys p me honest).Steps (w0, []) (w, [])) (hc : w.st.config = w0.st.config) {id : Bytes} {a : Ask}
    (ha : w.st.asks.get? id = some a) {q : Queries} {sender : Addr} {funds : List Coin} {m : Exec} {s' : State} {msgs : List Msg}
    {to : Addr} (hm : BuyerCall m) (hx : execute p ((sys p me honest).ctx w q) sender funds m w.st = .ok (s', msgs))
    (hn : .nft a.collection a.tokenId to ∈ msgs) :
    proceeds q w0.st.config a ≤ gets (payee a) a.details.price.denom msgs + 3 := by
  obtain ⟨c, w1, hi, h1⟩ := h0
  have hr : Run p me honest (w, []) := ⟨c, w1, hi, h1.trans hs⟩
  rw [← hc]
  exact C150_partial_now (Spec.Run.reach hr) hlim rfl hm hx ha hn

/-- Bound on what any settings can take: the shares charged add up to the protocol fee and the (capped) royalty, each rounded up.
Finders' parts come out of the protocol fee. -/
theorem C150_partial_bound (hr : Reach p me G s) {q : Queries} {a : Ask} :
    10^18 * a.details.price.amount ≤ 10^18 * proceeds q s.config a +
      a.details.price.amount * (s.config.protocolFeeBps * 10^14 + ((royaltyShare q s.config a.collection).map Prod.snd).sum) + 4 * 10^18 := by
  have hw := hr.wf
  unfold proceeds
  have h := charged_lt a.details.price.amount (feeShares s.config a.details.finder none ++ royaltyShare q s.config a.collection)
  rw [List.map_append, List.sum_append, feeShares_sum hw.cfg.2] at h
  have hlen : (feeShares s.config a.details.finder none ++ royaltyShare q s.config a.collection).length ≤ 4 := by
    unfold feeShares royaltyShare
    simp only [List.length_append, List.length_map, List.length_cons, List.length_nil]
    have h1 : ∀ o : Option Addr, o.toList.length ≤ 1 := by intro o; cases o <;> simp
    have := h1 a.details.finder
    have := h1 none
    split
    · simp only [List.length_cons, List.length_nil]; omega
    · simp only [List.length_nil]; omega
  omega

namespace Sample
/-- after alice has listed the token for 100 the admin raises the protocol fee from 2 % to 95 % -/
def cfgHigh : Config := { cfg with protocolFeeBps := 9500 }
def w7 : World State := at_ w4 (some self) admin [] (.updateConfig cfgHigh)
theorem w4_owner (c t : Bytes) : (q (some self) none).ownerOf c t = w4.owner c t := by
  simp only [q, w4, w3, w2, w1, at_, w0, setOwner]
  split <;> simp [*]
theorem up_ok : ok (M.ctx w4 (q (some self) none)) admin [] (.updateConfig cfgHigh) w4.st = true := by decide +kernel
theorem step47 : M.Steps (w4, []) (w7, []) := by
  have h := Sys.Step.call (S := M) w4 [] admin [] (.updateConfig cfgHigh) (q (some self) none) _ _ trivial (by decide)
    (fun _ => Nat.zero_le _) (fun c t _ => w4_owner c t) (run_eq up_ok)
  exact .tail (.refl _) h
/-- bob buys at the listed price -/
def buy7 : State × List Msg := run (M.ctx w7 (q (some self) none)) bob [⟨ust, 100⟩] (.acceptAsk aid (det 100)) w7.st
theorem buy7_ok : execute P (M.ctx w7 (q (some self) none)) bob [⟨ust, 100⟩] (.acceptAsk aid (det 100)) w7.st = .ok (buy7.1, buy7.2) :=
  run_eq (by decide +kernel)
theorem buy7_gets : proceeds (q (some self) none) w4.st.config (Ask.new P alice coll tok (det 100)) = 93 ∧ gets alice ust buy7.2 = 0 := by
  decide +kernel
def buy4 : State × List Msg := run (M.ctx w4 (q (some self) none)) bob [⟨ust, 100⟩] (.acceptAsk aid (det 100)) w4.st
theorem buy4_ok : execute P (M.ctx w4 (q (some self) none)) bob [⟨ust, 100⟩] (.acceptAsk aid (det 100)) w4.st = .ok (buy4.1, buy4.2) :=
  run_eq (by decide +kernel)
end Sample

example := C150_partial (by decide) Sample.runw4 (.refl _) rfl (id := Sample.aid) (a := Ask.new Sample.P Sample.alice Sample.coll Sample.tok (Sample.det 100))
  (by decide +kernel) (m := .acceptAsk Sample.aid (Sample.det 100)) trivial Sample.buy4_ok (to := Sample.bob) (by decide +kernel)

/-- alice's listing for 100 would have brought 93; it is sold and she gets nothing. -/
theorem C150_violated : ¬ C150_statement := by
  intro h
  have := h Sample.P Sample.self Sample.hon (by decide) Sample.hashInj Sample.prefixFree Sample.noSlash Sample.w4 Sample.w7 Sample.runw4
    Sample.step47 Sample.aid (Ask.new Sample.P Sample.alice Sample.coll Sample.tok (Sample.det 100)) (by decide +kernel) (by decide +kernel)
    (Sample.q (some Sample.self) none) Sample.bob [⟨Sample.ust, 100⟩] (.acceptAsk Sample.aid (Sample.det 100)) Sample.buy7.1 Sample.buy7.2 Sample.bob
    trivial Sample.buy7_ok (by decide +kernel)
  revert this
  decide +kernel

/-! ### C151 -/

/-- Every trade is made in the denom that the collection has at that time. -/
def C151_statement : Prop :=
  ∀ (p : Params) (me : Addr), 1 ≤ p.maxLimit → HashInj p → PrefixFree p → NoSlash p → ∀ s : State, Reach p me NoWrap s →
  ∀ (ctx : Ctx) (sender : Addr) (funds : List Coin) (m : Exec) (s' : State) (msgs : List Msg), ctx.self = me →
    execute p ctx sender funds m s = .ok (s', msgs) → Trades m s' me msgs →
    ∃ S B, SellBy s sender m S ∧ BuyBy s sender m B ∧ Nonempty (Sale ctx.q funds s s' m msgs S B) ∧
      (priceOf m S B).denom = denomOf s S.coll

theorem ask_not_buyer {m : Exec} (h : AskCall m) (h' : BuyerCall m) : False := by
  cases m <;> first | exact h | exact h'

/-- Calls that name the order to trade with. -/
def Spec.Accepts : Exec → Prop
  | .acceptAsk _ _ | .acceptBid _ _ | .acceptCollectionBid _ _ _ => True
  | _ => False

/-- What holds: a call that is matched by the contract trades in the denom that the collection has at that time. Missing: orders
accepted by name, which trade in the denom of the order. -/
theorem C151_partial (hr : Reach p me NoWrap s) (hlim : 1 ≤ p.maxLimit) (hinj : HashInj p) (hpf : PrefixFree p) (hns : NoSlash p) {ctx : Ctx}
    {sender : Addr} {funds : List Coin} {m : Exec} {s' : State} {msgs : List Msg} (hself : ctx.self = me)
    (hx : execute p ctx sender funds m s = .ok (s', msgs)) (ht : Trades m s' me msgs) (hm : ¬ Accepts m) :
    ∃ S B, SellBy s sender m S ∧ BuyBy s sender m B ∧ Nonempty (Sale ctx.q funds s s' m msgs S B) ∧
      (priceOf m S B).denom = denomOf s S.coll := by
  obtain ⟨S, B, h⟩ := trade_main hr hlim hself hx ht
  refine ⟨S, B, h.sell, h.buy, h.sale, ?_⟩
  have hd := h.limit.1
  have hsame := (h.same hns hinj hpf).1
  have key : (∃ price, Prices s m S.coll price ∧ price.denom = (priceOf m S B).denom) := by
    have hb := h.buy
    have hs := h.sell
    cases hs with
    | setAsk coll tok d => exact ⟨_, .setAsk _ _ _, hd⟩
    | sellNft coll tok d => exact ⟨_, .sellNft _ _ _, hd⟩
    | updateAsk id d a ha hc => exact ⟨_, .updateAsk _ _ _ ha, hd⟩
    | acceptBid => exact absurd trivial hm
    | acceptBidListed => exact absurd trivial hm
    | acceptCBid => exact absurd trivial hm
    | acceptCBidListed => exact absurd trivial hm
    | resting _ aid a hm' ha hid =>
      rw [hsame]
      have hpr : priceOf m ⟨some aid, a.collection, a.tokenId, a.creator, a.details.price, a.details.recipient.getD a.creator,
          a.details.finder⟩ B = a.details.price := by simp [priceOf, (buyer_not_lists hm').2]
      rw [hpr]
      cases hb with
      | acceptAsk => exact absurd trivial hm
      | setBid coll tok d => exact ⟨_, .setBid _ _ _, hd.symm⟩
      | buySpecific coll tok d => exact ⟨_, .buySpecific _ _ _, hd.symm⟩
      | updateBid id d b hb hc => exact ⟨_, .updateBid _ _ _ hb, hd.symm⟩
      | setCBid coll d => exact ⟨_, .setCBid _ _, hd.symm⟩
      | buyCollection coll d => exact ⟨_, .buyColl _ _, hd.symm⟩
      | updateCBid id d b hb hc => exact ⟨_, .updateCBid _ _ _ hb, hd.symm⟩
      | acceptBid => exact absurd trivial hm
      | acceptCBid => exact absurd trivial hm
      | restBid => exact (ask_not_buyer ‹AskCall _› hm').elim
      | restCBid => exact (ask_not_buyer ‹AskCall _› hm').elim
  obtain ⟨price, hp, e⟩ := key
  rw [← e]
  exact (C74_denom hp hx).1

namespace Sample
/-- after alice has listed the token for 100 `u`, the admin makes `v` the denom of the collection -/
def sV : State := (run (ctx (some self)) admin [] (.updateCollectionDenom coll vst) s2).1
theorem sV_ok : ok (ctx (some self)) admin [] (.updateCollectionDenom coll vst) s2 = true := by decide +kernel
theorem reachV : Reach P self NoWrap sV := Reach.call r2 (by decide) rfl (by decide) (run_eq sV_ok)
/-- before that bob buys it by naming the token -/
def buyS : State × List Msg := run (ctx (some self)) bob [⟨ust, 100⟩] (.buySpecificNft coll tok (det 100)) s2
theorem buyS_ok : execute P (ctx (some self)) bob [⟨ust, 100⟩] (.buySpecificNft coll tok (det 100)) s2 = .ok (buyS.1, buyS.2) :=
  run_eq (by decide +kernel)
theorem buyS_trades : Trades (.buySpecificNft coll tok (det 100)) buyS.1 self buyS.2 :=
  ⟨coll, tok, bob, (by decide +kernel), (by intro id h; cases h), (by rintro ⟨h, -⟩; exact absurd h (by decide))⟩
/-- bob buys the token for 100 `u` -/
def buyV : State × List Msg := run (ctx (some self)) bob [⟨ust, 100⟩] (.acceptAsk aid (det 100)) sV
theorem buyV_ok : execute P (ctx (some self)) bob [⟨ust, 100⟩] (.acceptAsk aid (det 100)) sV = .ok (buyV.1, buyV.2) :=
  run_eq (by decide +kernel)
theorem buyV_trades : Trades (.acceptAsk aid (det 100)) buyV.1 self buyV.2 :=
  ⟨coll, tok, bob, (by decide +kernel), (by intro id h; cases h), (by rintro ⟨h, -⟩; exact absurd h (by decide))⟩
theorem sV_ask {id : Bytes} {a : Ask} (h : sV.asks.get? id = some a) : a.collection = coll ∧ a.details.price.denom = ust := by
  have hall : ∀ x ∈ sV.asks.l, x.2.collection = coll ∧ x.2.details.price.denom = ust := by decide +kernel
  exact hall _ (AMap.mem_iff.2 h)
end Sample

example := C151_partial Sample.r2 (by decide) Sample.hashInj Sample.prefixFree Sample.noSlash rfl Sample.buyS_ok Sample.buyS_trades id

/-- alice's listing is sold for 100 `u` although the collection now trades in `v`. -/
theorem C151_violated : ¬ C151_statement := by
  intro h
  obtain ⟨S, B, hs, -, -, hd⟩ := h Sample.P Sample.self (by decide) Sample.hashInj Sample.prefixFree Sample.noSlash Sample.sV Sample.reachV
    (Sample.ctx (some Sample.self)) Sample.bob [⟨Sample.ust, 100⟩] (.acceptAsk Sample.aid (Sample.det 100)) _ _ rfl Sample.buyV_ok
    Sample.buyV_trades
  cases hs with
  | resting _ aid a hm ha hid =>
    obtain ⟨hc, he⟩ := Sample.sV_ask ha
    have : a.details.price.denom = denomOf Sample.sV a.collection := hd
    rw [hc, he] at this
    revert this
    decide +kernel

end Verif.V2

/-
Marketplace v2: every open order and both sides of every trade go back to a call by the account concerned (C128).
-/
import Verif.V2.PropsPurse

namespace Verif.V2
open Verif Spec

section
variable {p : Params} {me : Addr}

/-! ### Specification -/

/-- In state `s` the message asks to sell token `t` of collection `c` on the terms `d`. -/
inductive Spec.Sells (s : State) (who c t : Bytes) (d : Details) : Exec → Prop where
  | list : Sells s who c t d (.setAsk c t d)
  | sell : Sells s who c t d (.sellNft c t d)
  | relist (id : Bytes) (a : Ask) (ha : s.asks.get? id = some a) (hw : a.creator = who) (hc : a.collection = c)
      (ht : a.tokenId = t) : Sells s who c t d (.updateAsk id d)
  | accept (id : Bytes) (b : Bid) (hb : s.bids.get? id = some b) (hc : b.collection = c) (ht : b.tokenId = t) :
      Sells s who c t d (.acceptBid id d)
  | acceptAny (id : Bytes) (b : CBid) (hb : s.cbids.get? id = some b) (hc : b.collection = c) :
      Sells s who c t d (.acceptCollectionBid id t d)

/-- In state `s` the message asks to buy token `t` of collection `c`, or any of `c`, on the terms `d`. -/
inductive Spec.Buys (s : State) (who c t : Bytes) (d : Details) : Exec → Prop where
  | bid : Buys s who c t d (.setBid c t d)
  | buy : Buys s who c t d (.buySpecificNft c t d)
  | rebid (id : Bytes) (b : Bid) (hb : s.bids.get? id = some b) (hw : b.creator = who) (hc : b.collection = c)
      (ht : b.tokenId = t) : Buys s who c t d (.updateBid id d)
  | bidAny : Buys s who c t d (.setCollectionBid c d)
  | buyAny : Buys s who c t d (.buyCollectionNft c d)
  | rebidAny (id : Bytes) (b : CBid) (hb : s.cbids.get? id = some b) (hw : b.creator = who) (hc : b.collection = c) :
      Buys s who c t d (.updateCollectionBid id d)
  | take (id : Bytes) (a : Ask) (ha : s.asks.get? id = some a) (hc : a.collection = c) (ht : a.tokenId = t) :
      Buys s who c t d (.acceptAsk id d)

/-- What a lookup finds now was put there by call `x` of the history, and every call since has left it there. -/
def Spec.Stands {V : Type} (get : State → Option V) (v : V) (x : Act) (l : List Act) : Prop :=
  ∃ l1 l2, l = l1 ++ x :: l2 ∧ get x.after = some v ∧ ∀ y ∈ l1, get y.before = some v ∧ get y.after = some v

/-- The call that gave a listing its present terms. -/
def Spec.GaveAsk (a : Ask) (x : Act) : Prop :=
  x.sender = a.creator ∧ Sells x.before a.creator a.collection a.tokenId a.details x.msg

def Spec.GaveBid (b : Bid) (x : Act) : Prop :=
  x.sender = b.creator ∧ Buys x.before b.creator b.collection b.tokenId b.details x.msg

/-- For any token of the collection. -/
def Spec.GaveCBid (b : CBid) (x : Act) : Prop :=
  x.sender = b.creator ∧ ∀ t, Buys x.before b.creator b.collection t b.details x.msg

/-- Call `y` of `who` asked to sell on the terms `d`: it is the present call `x`, or it gave an open listing its terms. -/
def Spec.Offered (x : Act) (l : List Act) (who c t : Bytes) (d : Details) (y : Act) : Prop :=
  y.sender = who ∧ Sells y.before who c t d y.msg ∧
  (y = x ∨ ∃ id a, a.creator = who ∧ a.collection = c ∧ a.tokenId = t ∧ a.details = d ∧ Stands (fun s => s.asks.get? id) a y l)

/-- Call `y` of `who` asked to buy on the terms `d`: it is the present call `x`, or it gave an open bid its terms. -/
def Spec.Wanted (x : Act) (l : List Act) (who c t : Bytes) (d : Details) (y : Act) : Prop :=
  y.sender = who ∧ Buys y.before who c t d y.msg ∧
  (y = x ∨
   (∃ id b, b.creator = who ∧ b.collection = c ∧ b.tokenId = t ∧ b.details = d ∧ Stands (fun s => s.bids.get? id) b y l) ∨
   ∃ id b, b.creator = who ∧ b.collection = c ∧ b.details = d ∧ Stands (fun s => s.cbids.get? id) b y l)

/-! ### Lemmas -/

/-- New contents of the order maps, and who asked for them. -/
structure Given (s s' : State) (sender : Addr) (m : Exec) : Prop where
  ask : ∀ {id a}, s'.asks.get? id = some a → s.asks.get? id = some a ∨
    (sender = a.creator ∧ Sells s a.creator a.collection a.tokenId a.details m)
  bid : ∀ {id b}, s'.bids.get? id = some b → s.bids.get? id = some b ∨
    (sender = b.creator ∧ Buys s b.creator b.collection b.tokenId b.details m)
  cbid : ∀ {id b}, s'.cbids.get? id = some b → s.cbids.get? id = some b ∨
    (sender = b.creator ∧ ∀ t, Buys s b.creator b.collection t b.details m)

theorem Shrink.given {s s' : State} {sender : Addr} {m : Exec} (h : Shrink s s') : Given s s' sender m :=
  ⟨fun x => .inl (h.ask x), fun x => .inl (h.bid x), fun x => .inl (h.cbid x)⟩

theorem get_insert {V : Type} {m : AMap Bytes V} {k id : Bytes} {v w : V} (h : (m.insert k v).get? id = some w) :
    w = v ∨ m.get? id = some w := by
  rw [AMap.get?_insert] at h
  split at h
  · exact .inl (Option.some.inj h).symm
  · exact .inr h

theorem eff_given {ctx : Ctx} {sender : Addr} {funds : List Coin} {m : Exec} {s s' : State} {msgs : List Msg}
    (e : Eff p ctx sender funds s m s' msgs) : Given s s' sender m := by
  cases e with
  | config => exact Shrink.given ⟨id, id, id⟩
  | denom => exact Shrink.given ⟨id, id, id⟩
  | setFee => exact Shrink.given ⟨id, id, id⟩
  | rmFee => exact Shrink.given ⟨id, id, id⟩
  | restAsk coll tok d =>
    refine ⟨fun h => ?_, .inl, .inl⟩
    rcases get_insert h with rfl | h
    · exact .inr ⟨rfl, .list⟩
    · exact .inl h
  | sellAsk => exact (afterSale_shrink _ _ _).given
  | updAsk i d b _ _ hb hcr =>
    refine ⟨fun h => ?_, .inl, .inl⟩
    rcases get_insert h with rfl | h
    · exact .inr ⟨hcr, .relist i b hb rfl rfl rfl⟩
    · exact .inl h
  | updSell => exact (afterSale_shrink _ _ _).given
  | rmAsk => exact Shrink.given ⟨erase_sub, id, id⟩
  | accAsk => exact (afterSale_bump_shrink _ _ _).given
  | restBid coll tok d =>
    refine ⟨.inl, fun h => ?_, .inl⟩
    rcases get_insert h with rfl | h
    · exact .inr ⟨rfl, .bid⟩
    · exact .inl h
  | buyBid => exact (afterSale_bump_shrink _ _ _).given
  | updBid i d b _ _ _ _ hb hcr =>
    refine ⟨.inl, fun h => ?_, .inl⟩
    rcases get_insert h with rfl | h
    · exact .inr ⟨hcr, .rebid i b hb rfl rfl rfl⟩
    · exact .inl h
  | updBuy => exact (afterSale_shrink _ _ _).given
  | rmBid => exact Shrink.given ⟨id, erase_sub, id⟩
  | accBid => exact (afterSale_shrink _ _ _).given
  | restCBid coll d =>
    refine ⟨.inl, .inl, fun h => ?_⟩
    rcases get_insert h with rfl | h
    · exact .inr ⟨rfl, fun _ => .bidAny⟩
    · exact .inl h
  | buyCBid => exact (afterSale_bump_shrink _ _ _).given
  | updCBid i d b _ _ _ _ hb hcr =>
    refine ⟨.inl, .inl, fun h => ?_⟩
    rcases get_insert h with rfl | h
    · exact .inr ⟨hcr, fun _ => .rebidAny i b hb rfl rfl⟩
    · exact .inl h
  | updCBuy => exact (afterSale_shrink _ _ _).given
  | rmCBid => exact Shrink.given ⟨id, id, erase_sub⟩
  | accCBid => exact (afterSale_shrink _ _ _).given

/-- What is there now, but was not at the beginning, was put there by some call. -/
theorem stands {V : Type} {get : State → Option V} {Gave : V → Act → Prop} {s0 s : State} {l : List Act}
    (h0 : ∀ v, get s0 ≠ some v)
    (step : ∀ {ctx : Ctx} {sender : Addr} {funds : List Coin} {m : Exec} {s s' : State} {msgs : List Msg},
      execute p ctx sender funds m s = .ok (s', msgs) → ∀ {v}, get s' = some v →
      get s = some v ∨ Gave v ⟨ctx.q, s, sender, funds, m, s', msgs⟩)
    (h : Diary p me s0 l s) {v : V} (hv : get s = some v) : ∃ x, Gave v x ∧ Stands get v x l := by
  induction h with
  | nil => exact absurd hv (h0 v)
  | @call l s s' ctx sender funds m msgs hd hself hne hx ih =>
    rcases step hx hv with h | h
    · obtain ⟨x, hg, l1, l2, e, ha, hb⟩ := ih h
      refine ⟨x, hg, _ :: l1, l2, by rw [e]; rfl, ha, ?_⟩
      intro y hy
      rcases List.mem_cons.mp hy with rfl | hy
      · exact ⟨h, hv⟩
      · exact hb y hy
    · exact ⟨_, h, [], l, rfl, hv, by intro y hy; cases hy⟩

/-! ### Properties -/

/-- Every open order was given its present terms by a call of its creator, and has not been touched since. -/
theorem C128_ask {c : Config} {s0 s : State} {l : List Act} (hi : instantiate p c = .ok s0) (h : Diary p me s0 l s)
    {id : Bytes} {a : Ask} (ha : s.asks.get? id = some a) : ∃ x, GaveAsk a x ∧ Stands (fun s => s.asks.get? id) a x l := by
  obtain ⟨e, _, _⟩ := init_empty hi
  refine stands (get := fun s => s.asks.get? id) (Gave := GaveAsk) ?_ ?_ h ha
  · intro v; rw [e]; simp
  · intro ctx sender funds m s s' msgs hx v hv
    exact (eff_given (execute_eff hx)).ask hv

theorem C128_bid {c : Config} {s0 s : State} {l : List Act} (hi : instantiate p c = .ok s0) (h : Diary p me s0 l s)
    {id : Bytes} {b : Bid} (hb : s.bids.get? id = some b) : ∃ x, GaveBid b x ∧ Stands (fun s => s.bids.get? id) b x l := by
  obtain ⟨_, e, _⟩ := init_empty hi
  refine stands (get := fun s => s.bids.get? id) (Gave := GaveBid) ?_ ?_ h hb
  · intro v; rw [e]; simp
  · intro ctx sender funds m s s' msgs hx v hv
    exact (eff_given (execute_eff hx)).bid hv

theorem C128_cbid {c : Config} {s0 s : State} {l : List Act} (hi : instantiate p c = .ok s0) (h : Diary p me s0 l s)
    {id : Bytes} {b : CBid} (hb : s.cbids.get? id = some b) : ∃ x, GaveCBid b x ∧ Stands (fun s => s.cbids.get? id) b x l := by
  obtain ⟨_, _, e⟩ := init_empty hi
  refine stands (get := fun s => s.cbids.get? id) (Gave := GaveCBid) ?_ ?_ h hb
  · intro v; rw [e]; simp
  · intro ctx sender funds m s s' msgs hx v hv
    exact (eff_given (execute_eff hx)).cbid hv

/-- Both sides of a trade asked for it: the one by the present call, the other by the present call or by the call that gave the
order it is matched with its terms; neither gets worse than the terms it named. -/
theorem C128_trade (hlim : 1 ≤ p.maxLimit) (hinj : HashInj p) (hpf : PrefixFree p) (hns : NoSlash p) {c : Config} {s0 s' : State}
    {x : Act} {l : List Act} (hi : instantiate p c = .ok s0) (h : Diary p me s0 (x :: l) s') (hn : l.length + 1 < 2^64)
    (ht : Trades x.msg x.after me x.sent) :
    ∃ S B, Nonempty (Sale x.q x.funds x.before x.after x.msg x.sent S B) ∧ (S.who = x.sender ∨ B.who = x.sender) ∧
      (∃ y d, Offered x l S.who S.coll S.tok d y ∧ d.price.denom = (priceOf x.msg S B).denom ∧
        d.price.amount ≤ (priceOf x.msg S B).amount) ∧
      (∃ y d, Offered x l S.who S.coll S.tok d y ∧ d.recipient.getD S.who = S.payTo) ∧
      (∃ y d, Wanted x l B.who S.coll S.tok d y ∧ d.price.denom = (priceOf x.msg S B).denom ∧
        (priceOf x.msg S B).amount ≤ d.price.amount ∧ d.recipient.getD B.who = B.nftTo) := by
  cases h with
  | @call l s s' ctx sender funds m msgs hd hself hne hx =>
    have hr := (diary_reach hi hd hn).1
    obtain ⟨S, B, T⟩ := trade_main hr hlim hself hx ht
    obtain ⟨ec, et⟩ := T.same hns hinj hpf
    obtain ⟨l1, l2⟩ := T.limit
    have hp1 : S.limit.denom = (priceOf m S B).denom ∧ S.limit.amount ≤ (priceOf m S B).amount := by
      unfold priceOf; split
      · exact ⟨l1, l2⟩
      · exact ⟨rfl, Nat.le_refl _⟩
    have hp2 : B.limit.denom = (priceOf m S B).denom ∧ (priceOf m S B).amount ≤ B.limit.amount := by
      unfold priceOf; split
      · exact ⟨rfl, Nat.le_refl _⟩
      · exact ⟨l1.symm, l2⟩
    have hS := T.sell
    have hB := T.buy
    refine ⟨S, B, T.sale, ?_, ?_, ?_, ?_⟩
    · cases hS with
      | resting _ aid a hm ha hid =>
        right
        have hna : ¬ AskCall m := by cases m <;> first | exact absurd hm (fun h => h) | exact fun h => h
        cases hB with
        | restBid _ _ _ h => exact absurd h hna
        | restCBid _ _ _ h => exact absurd h hna
        | acceptBid => exact absurd hm (fun h => h)
        | acceptCBid => exact absurd hm (fun h => h)
        | _ => rfl
      | _ => exact .inl rfl
    · cases hS with
      | setAsk coll tok d => exact ⟨_, d, ⟨rfl, .list, .inl rfl⟩, hp1⟩
      | sellNft coll tok d => exact ⟨_, d, ⟨rfl, .sell, .inl rfl⟩, hp1⟩
      | updateAsk id d a ha hc => exact ⟨_, d, ⟨rfl, .relist id a ha hc rfl rfl, .inl rfl⟩, hp1⟩
      | acceptBid id d b hb => exact ⟨_, d, ⟨rfl, .accept id b hb rfl rfl, .inl rfl⟩, hp1⟩
      | acceptBidListed id d aid a ha hc =>
        cases hB with
        | acceptBid _ _ b hb => exact ⟨_, d, ⟨rfl, .accept id b hb ec.symm (et _ rfl), .inl rfl⟩, hp1⟩
        | restBid _ _ _ hm => exact absurd hm (fun h => h)
        | restCBid _ _ _ hm => exact absurd hm (fun h => h)
      | acceptCBid id tok d b hb => exact ⟨_, d, ⟨rfl, .acceptAny id b hb rfl, .inl rfl⟩, hp1⟩
      | acceptCBidListed id tok d aid a ha hc =>
        have en := T.named hinj hpf _ _ _ rfl
        cases hB with
        | acceptCBid _ _ _ b hb =>
          refine ⟨⟨ctx.q, s, sender, funds, _, s', msgs⟩, d, ⟨rfl, ?_, .inl rfl⟩, hp1⟩
          dsimp only at en ⊢
          rw [en]
          exact .acceptAny id b hb ec.symm
        | restBid _ _ _ hm => exact absurd hm (fun h => h)
        | restCBid _ _ _ hm => exact absurd hm (fun h => h)
      | resting _ aid a hm ha hid =>
        obtain ⟨y, hy, hst⟩ := C128_ask hi hd ha
        exact ⟨y, a.details, ⟨hy.1, hy.2, .inr ⟨aid, a, rfl, rfl, rfl, rfl, hst⟩⟩, hp1⟩
    · cases hS with
      | setAsk coll tok d => exact ⟨_, d, ⟨rfl, .list, .inl rfl⟩, rfl⟩
      | sellNft coll tok d => exact ⟨_, d, ⟨rfl, .sell, .inl rfl⟩, rfl⟩
      | updateAsk id d a ha hc => exact ⟨_, d, ⟨rfl, .relist id a ha hc rfl rfl, .inl rfl⟩, rfl⟩
      | acceptBid id d b hb => exact ⟨_, d, ⟨rfl, .accept id b hb rfl rfl, .inl rfl⟩, rfl⟩
      | acceptBidListed id d aid a ha hc =>
        subst hc
        obtain ⟨y, hy, hst⟩ := C128_ask hi hd ha
        exact ⟨y, a.details, ⟨hy.1, hy.2, .inr ⟨aid, a, rfl, rfl, rfl, rfl, hst⟩⟩, rfl⟩
      | acceptCBid id tok d b hb => exact ⟨_, d, ⟨rfl, .acceptAny id b hb rfl, .inl rfl⟩, rfl⟩
      | acceptCBidListed id tok d aid a ha hc =>
        subst hc
        obtain ⟨y, hy, hst⟩ := C128_ask hi hd ha
        exact ⟨y, a.details, ⟨hy.1, hy.2, .inr ⟨aid, a, rfl, rfl, rfl, rfl, hst⟩⟩, rfl⟩
      | resting _ aid a hm ha hid =>
        obtain ⟨y, hy, hst⟩ := C128_ask hi hd ha
        exact ⟨y, a.details, ⟨hy.1, hy.2, .inr ⟨aid, a, rfl, rfl, rfl, rfl, hst⟩⟩, rfl⟩
    · have buys : ∀ {q : Queries} {d : Details} {m : Exec}, B.who = sender → Buys s sender S.coll S.tok d m →
          Wanted ⟨q, s, sender, funds, m, s', msgs⟩ l B.who S.coll S.tok d ⟨q, s, sender, funds, m, s', msgs⟩ := by
        intro q d m hw h
        exact ⟨hw.symm, hw ▸ h, .inl rfl⟩
      cases hB with
      | acceptAsk id d a ha => exact ⟨_, d, buys rfl (.take id a ha ec.symm (et _ rfl)), hp2.1, hp2.2, rfl⟩
      | setBid coll tok d =>
        obtain rfl := et _ rfl; dsimp only at ec; subst ec
        exact ⟨_, d, buys rfl .bid, hp2.1, hp2.2, rfl⟩
      | buySpecific coll tok d =>
        obtain rfl := et _ rfl; dsimp only at ec; subst ec
        exact ⟨_, d, buys rfl .buy, hp2.1, hp2.2, rfl⟩
      | updateBid id d b hb hc => exact ⟨_, d, buys rfl (.rebid id b hb hc ec.symm (et _ rfl)), hp2.1, hp2.2, rfl⟩
      | setCBid coll d =>
        dsimp only at ec; subst ec
        exact ⟨_, d, buys rfl .bidAny, hp2.1, hp2.2, rfl⟩
      | buyCollection coll d =>
        dsimp only at ec; subst ec
        exact ⟨_, d, buys rfl .buyAny, hp2.1, hp2.2, rfl⟩
      | updateCBid id d b hb hc => exact ⟨_, d, buys rfl (.rebidAny id b hb hc ec.symm), hp2.1, hp2.2, rfl⟩
      | acceptBid id d b hb =>
        obtain ⟨y, hy, hst⟩ := C128_bid hi hd hb
        dsimp only at ec
        rw [ec, ← et _ rfl]
        exact ⟨y, b.details, ⟨hy.1, hy.2, .inr (.inl ⟨id, b, rfl, rfl, rfl, rfl, hst⟩)⟩, hp2.1, hp2.2, rfl⟩
      | acceptCBid id tok d b hb =>
        obtain ⟨y, hy, hst⟩ := C128_cbid hi hd hb
        dsimp only at ec
        rw [ec]
        exact ⟨y, b.details, ⟨hy.1, hy.2 _, .inr (.inr ⟨id, b, rfl, rfl, rfl, hst⟩)⟩, hp2.1, hp2.2, rfl⟩
      | restBid _ id b hm hb =>
        obtain ⟨y, hy, hst⟩ := C128_bid hi hd hb
        dsimp only at ec
        rw [ec, ← et _ rfl]
        exact ⟨y, b.details, ⟨hy.1, hy.2, .inr (.inl ⟨id, b, rfl, rfl, rfl, rfl, hst⟩)⟩, hp2.1, hp2.2, rfl⟩
      | restCBid _ id b hm hb =>
        obtain ⟨y, hy, hst⟩ := C128_cbid hi hd hb
        dsimp only at ec
        rw [ec]
        exact ⟨y, b.details, ⟨hy.1, hy.2 _, .inr (.inr ⟨id, b, rfl, rfl, rfl, hst⟩)⟩, hp2.1, hp2.2, rfl⟩

/-- Accepting a bid on a collection sells the token the call names. -/
theorem C128_named (hlim : 1 ≤ p.maxLimit) (hinj : HashInj p) (hpf : PrefixFree p) {c : Config} {s0 s : State} {x : Act} {l : List Act}
    (hi : instantiate p c = .ok s0) (h : Diary p me s0 (x :: l) s) (hn : l.length + 1 < 2^64)
    (ht : Trades x.msg x.after me x.sent) {id t : Bytes} {d : Details} (hm : x.msg = .acceptCollectionBid id t d) :
    ∃ S B, Nonempty (Sale x.q x.funds x.before x.after x.msg x.sent S B) ∧ S.tok = t := by
  cases h with
  | @call l s s' ctx sender funds m msgs hd hself hne hx =>
    obtain ⟨S, B, T⟩ := trade_main (diary_reach hi hd hn).1 hlim hself hx ht
    exact ⟨S, B, T.sale, T.named hinj hpf _ _ _ hm⟩

/-! ### Examples -/

namespace Sample
/-- The sale of the sample history: alice named 85 in the last call, carol 90 in a bid made by the call before. -/
example := C128_trade (by decide) hashInj prefixFree noSlash init0 diary_ok (by decide)
  (trades_of (c := coll) (t := tok) (to := carol) (by decide +kernel) (by decide) (by simp [act]))

/-- The sample history without its last call. -/
theorem diary4_ok : Diary P self s0 (diary.drop 1) s4 := by
  have o1 : ok (ctx none) admin [] (.setListingFee ⟨ust, 5⟩) s0 = true := by decide +kernel
  have o2 : ok (ctx (some alice)) alice [⟨ust, 5⟩] (.setAsk coll tok (det 100)) s1 = true := by decide +kernel
  have o3 : ok (ctx (some self)) bob [⟨ust, 80⟩] (.setBid coll tok (det' 80 carol)) s2 = true := by decide +kernel
  have o4 : ok (ctx (some self)) carol [⟨ust, 95⟩] (.setCollectionBid coll (det 90)) s3 = true := by decide +kernel
  exact note (note (note (note .nil rfl (by decide) o1) rfl (by decide) o2) rfl (by decide) o3) rfl (by decide) o4

/-- What is open at that point. -/
def ask4 : Ask := ⟨askId P coll tok, alice, coll, tok, det 100⟩
def bid4 : Bid := (s4.bids.l.map (·.2)).headD ⟨[], [], [], [], det 0⟩
def cbid4 : CBid := (s4.cbids.l.map (·.2)).headD ⟨[], [], [], det 0⟩

example : (bid4.creator, bid4.tokenId, bid4.details, cbid4.creator, cbid4.details) = (bob, tok, det' 80 carol, carol, det 90) := by
  decide +kernel
example := C128_ask init0 diary4_ok (id := ask4.id) (a := ask4) (by decide +kernel)
example := C128_bid init0 diary4_ok (id := bid4.id) (b := bid4) (by decide +kernel)
example := C128_cbid init0 diary4_ok (id := cbid4.id) (b := cbid4) (by decide +kernel)

/-- Instead, alice accepts the bid of carol with the listed token. -/
def takeMsg : Exec := .acceptCollectionBid cbid4.id tok (det 88)
def takeAct : Act := act (ctx (some self)) alice [] takeMsg s4
theorem take_ok : Diary P self s0 (takeAct :: diary.drop 1) takeAct.after :=
  note diary4_ok rfl (by decide) (by decide +kernel)
theorem take_trades : Trades takeAct.msg takeAct.after self takeAct.sent :=
  trades_of (c := coll) (t := tok) (to := carol) (by decide +kernel) (by decide) (by simp [takeAct, act, takeMsg])

example := C128_named (by decide) hashInj prefixFree init0 take_ok (by decide) take_trades rfl
example := C128_trade (by decide) hashInj prefixFree noSlash init0 take_ok (by decide) take_trades
end Sample

end
end Verif.V2

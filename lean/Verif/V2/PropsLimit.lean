/-
Marketplace v2: the limit of an immediate trade only decides whether there is a trade: C169.
-/
import Verif.V2.PropsShown
import Verif.V2.PropsAccepts
import Verif.V2.PropsDepth

namespace Verif.V2
open Verif Spec

namespace Spec
/-- The calls that may trade, with the limit that they carry replaced. -/
def withLimit (x : Coin) : Exec → Exec
  | .sellNft c t d => .sellNft c t { d with price := x }
  | .buySpecificNft c t d => .buySpecificNft c t { d with price := x }
  | .buyCollectionNft c d => .buyCollectionNft c { d with price := x }
  | .acceptAsk id d => .acceptAsk id { d with price := x }
  | .acceptBid id d => .acceptBid id { d with price := x }
  | .acceptCollectionBid id t d => .acceptCollectionBid id t { d with price := x }
  | .setAsk c t d => .setAsk c t { d with price := x }
  | .updateAsk id d => .updateAsk id { d with price := x }
  | .setBid c t d => .setBid c t { d with price := x }
  | .updateBid id d => .updateBid id { d with price := x }
  | .setCollectionBid c d => .setCollectionBid c { d with price := x }
  | .updateCollectionBid id d => .updateCollectionBid id { d with price := x }
  | m => m

/-- A limit that asks for less, for the calls that trade at once or fail: a buyer's that is higher or a seller's that is lower, in the same denom. -/
def Looser (x : Coin) : Exec → Prop
  | .buySpecificNft _ _ d | .acceptAsk _ d => x.denom = d.price.denom ∧ d.price.amount ≤ x.amount
  | .buyCollectionNft _ d => x.denom = d.price.denom ∧ d.price.amount ≤ x.amount ∧ x.amount + 1 < 2^128
  | .sellNft _ _ d => x.denom = d.price.denom ∧ x.amount ≤ d.price.amount ∧ 0 < x.amount
  | .acceptBid _ d | .acceptCollectionBid _ _ d => x.denom = d.price.denom ∧ x.amount ≤ d.price.amount
  | _ => False

/-- The same for the calls that leave an order if they do not trade. -/
def LooserOrder (x : Coin) : Exec → Prop
  | .setBid _ _ d | .updateBid _ d => x.denom = d.price.denom ∧ d.price.amount ≤ x.amount
  | .setCollectionBid _ d | .updateCollectionBid _ d => x.denom = d.price.denom ∧ d.price.amount ≤ x.amount ∧ x.amount + 1 < 2^128
  | .setAsk _ _ d | .updateAsk _ d => x.denom = d.price.denom ∧ x.amount ≤ d.price.amount ∧ 0 < x.amount
  | _ => False
end Spec

section
variable {p : Params}

/-- What succeeds on the left succeeds on the right in the same way. -/
def Carries {α : Type} (x y : Res α) : Prop := ∀ r, x = .ok r → y = .ok r

theorem Carries.refl {α : Type} {x : Res α} : Carries x x := fun _ h => h

theorem carries_bind {α β : Type} {x y : Res α} {f g : α → Res β} (h : Carries x y) (hf : ∀ a, x = .ok a → Carries (f a) (g a)) :
    Carries (x >>= f) (y >>= g) := by
  intro r hr
  rw [bind_ok] at hr ⊢
  obtain ⟨a, h1, h2⟩ := hr
  exact ⟨a, h a h1, hf a h1 r h2⟩

theorem carries_details {d : Details} {x : Coin} {f g : Details → Out} (h : ∀ d', d'.price = d.price → Carries (f d') (g { d' with price := x })) :
    Carries (d.strToAddr p >>= f) (({ d with price := x } : Details).strToAddr p >>= g) := by
  intro r hr
  unfold Details.strToAddr at hr ⊢
  simp only [bind_ok, Except.ok.injEq] at hr ⊢
  obtain ⟨d', ⟨a, ha, b, hb, rfl⟩, h2⟩ := hr
  exact ⟨_, ⟨a, ha, b, hb, rfl⟩, h ⟨d.price, a, b⟩ rfl r h2⟩

theorem price_looser {s : State} {coll : Addr} {x y : Coin} (hd : x.denom = y.denom) (hx : 0 < y.amount → 0 < x.amount) :
    Carries (onlyValidPrice s s.config coll y) (onlyValidPrice s s.config coll x) := by
  intro r h
  unfold onlyValidPrice at h ⊢
  simp only [bind_ok, ensure_ok] at h ⊢
  rw [hd]
  obtain ⟨_, h1, h2⟩ := h
  exact ⟨(), hx h1, h2⟩

/-- A seller with a lower limit meets the same bid. -/
theorem sell_looser (hlim : 1 ≤ p.maxLimit) {s : State} {a : Ask} {x : Coin} {mb : MatchingBid} (hv : p.valid a.collection = true)
    (hd : x.denom = a.details.price.denom)
    (hx : x.amount ≤ a.details.price.amount) (h : a.matchWithBid p s = some mb) :
    ({ a with details := { a.details with price := x } } : Ask).matchWithBid p s = some mb := by
  have ho : FromStart p true (some { descending := some true, limit := some 1 }) := ⟨rfl, rfl, rfl, Nat.le_refl 1⟩
  have e1 := fun y => topBid_shown hlim (s := s) (coll := a.collection) (tok := a.tokenId) (lim := y) ho
    (by simp only [query, bind_ok, addrValidate_ok]; exact ⟨_, ⟨hv, rfl⟩, rfl⟩)
  have e2 := fun y => topCBid_shown hlim (s := s) (coll := a.collection) (lim := y) ho
    (by simp only [query, bind_ok, addrValidate_ok]; exact ⟨_, ⟨hv, rfl⟩, rfl⟩)
  unfold Ask.matchWithBid at h ⊢
  simp only at h ⊢
  rw [e1, e2] at h ⊢
  rw [hd]
  generalize List.head? _ = o1 at h ⊢
  generalize List.head? _ = o2 at h ⊢
  cases o1 with
  | none =>
    cases o2 with
    | none => exact h
    | some c =>
      simp only [Option.filter_none, Option.filter_some, decide_eq_true_eq] at h ⊢
      by_cases h2 : a.details.price.amount ≤ c.details.price.amount
      · rw [if_pos h2] at h
        rw [if_pos (Nat.le_trans hx h2)]; exact h
      · rw [if_neg h2] at h; cases h
  | some b =>
    cases o2 with
    | none =>
      simp only [Option.filter_none, Option.filter_some, decide_eq_true_eq] at h ⊢
      by_cases h1 : a.details.price.amount ≤ b.details.price.amount
      · rw [if_pos h1] at h
        rw [if_pos (Nat.le_trans hx h1)]; exact h
      · rw [if_neg h1] at h; cases h
    | some c =>
      simp only [Option.filter_some, decide_eq_true_eq] at h ⊢
      by_cases h1 : a.details.price.amount ≤ b.details.price.amount <;> by_cases h2 : a.details.price.amount ≤ c.details.price.amount
      · rw [if_pos h1, if_pos h2] at h
        rw [if_pos (Nat.le_trans hx h1), if_pos (Nat.le_trans hx h2)]; exact h
      · rw [if_pos h1, if_neg h2] at h
        rw [if_pos (Nat.le_trans hx h1)]
        by_cases h3 : x.amount ≤ c.details.price.amount
        · rw [if_pos h3]; simp only; rw [if_pos (by omega)]; exact h
        · rw [if_neg h3]; exact h
      · rw [if_neg h1, if_pos h2] at h
        rw [if_pos (Nat.le_trans hx h2)]
        by_cases h3 : x.amount ≤ b.details.price.amount
        · rw [if_pos h3]; simp only; rw [if_neg (by omega)]; exact h
        · rw [if_neg h3]; exact h
      · rw [if_neg h1, if_neg h2] at h; cases h

/-- A buyer of a given token with a higher limit meets the same listing. -/
theorem buy_looser {s : State} {b : Bid} {x : Coin} {a : Ask} (hd : x.denom = b.details.price.denom) (hx : b.details.price.amount ≤ x.amount)
    (h : b.matchWithAsk p s = some a) : ({ b with details := { b.details with price := x } } : Bid).matchWithAsk p s = some a := by
  obtain ⟨h1, h2, h3⟩ := bidMatch_some h
  unfold Bid.matchWithAsk
  simp only [h1]
  rw [if_pos (hasCoins_single.mpr ⟨hd.trans h2, Nat.le_trans h3 hx⟩)]

/-- A buyer of any token with a higher limit meets the same listing. -/
theorem any_looser (hlim : 1 ≤ p.maxLimit) {s : State} {b : CBid} {x : Coin} {a : Ask} (hd : x.denom = b.details.price.denom)
    (hx : b.details.price.amount ≤ x.amount) (hm : x.amount + 1 < 2^128)
    (h : b.matchWithAsk p s = .ok (some a)) :
    ({ b with details := { b.details with price := x } } : CBid).matchWithAsk p s = .ok (some a) := by
  obtain ⟨o, h1, h2⟩ := cbid_match hlim (s := s) (b := b) (by omega)
  obtain ⟨o', h1', h2'⟩ := cbid_match hlim (s := s) (b := { b with details := { b.details with price := x } }) hm
  rw [h] at h1
  cases h1
  obtain ⟨id, g1, g2, g3⟩ := (h2 a).mp rfl
  rw [h1', (h2' a).mpr ⟨id, by dsimp only; rw [hd]; exact g1, Nat.le_trans g2 hx, by dsimp only; rw [hd]; exact g3⟩]

theorem set_ask_looser (hlim : 1 ≤ p.maxLimit) {ctx : Ctx} {sender : Addr} {funds : List Coin} {c : Addr} {t : Bytes} {d : Details} {x : Coin} {s : State}
    (hv : p.valid c = true) (hd : x.denom = d.price.denom) (hx : x.amount ≤ d.price.amount) (h0 : 0 < x.amount) :
    Carries (executeSetAsk p ctx sender funds c t d true s) (executeSetAsk p ctx sender funds c t { d with price := x } true s) := by
  unfold executeSetAsk
  refine carries_bind .refl fun _ _ => carries_bind .refl fun _ _ => carries_bind (price_looser hd fun _ => h0) fun _ _ =>
    carries_bind .refl fun _ _ => carries_bind .refl fun _ _ => carries_bind .refl fun _ _ => ?_
  simp only
  cases hm : (Ask.new p sender c t d).matchWithBid p s with
  | none => intro r h; cases h
  | some mb =>
    have := sell_looser hlim (x := x) (a := Ask.new p sender c t d) hv hd hx hm
    change (Ask.new p sender c t { d with price := x }).matchWithBid p s = some mb at this
    rw [this]
    exact fun r h => h

theorem set_bid_looser {ctx : Ctx} {sender : Addr} {funds : List Coin} {c : Addr} {t : Bytes} {d : Details} {x : Coin} {s : State}
    (hd : x.denom = d.price.denom) (hx : d.price.amount ≤ x.amount) :
    Carries (executeSetBid p ctx sender funds c t d true s) (executeSetBid p ctx sender funds c t { d with price := x } true s) := by
  unfold executeSetBid
  refine carries_bind .refl fun _ _ => carries_bind (price_looser hd fun h => Nat.lt_of_lt_of_le h hx) fun _ _ => carries_bind .refl fun f _ => ?_
  simp only
  cases hm : (Bid.new p sender c t d ctx.height (nextNonce s)).matchWithAsk p { s with nonce := nextNonce s } with
  | none => intro r h; cases h
  | some a =>
    have := buy_looser (x := x) (b := Bid.new p sender c t d ctx.height (nextNonce s)) hd hx hm
    change (Bid.new p sender c t { d with price := x } ctx.height (nextNonce s)).matchWithAsk p { s with nonce := nextNonce s } = some a at this
    rw [this]
    exact fun r h => h

theorem set_cbid_looser (hlim : 1 ≤ p.maxLimit) {ctx : Ctx} {sender : Addr} {funds : List Coin} {c : Addr} {d : Details} {x : Coin} {s : State}
    (hd : x.denom = d.price.denom) (hx : d.price.amount ≤ x.amount) (hm : x.amount + 1 < 2^128) :
    Carries (executeSetCollectionBid p ctx sender funds c d true s) (executeSetCollectionBid p ctx sender funds c { d with price := x } true s) := by
  unfold executeSetCollectionBid
  refine carries_bind .refl fun _ _ => carries_bind (price_looser hd fun h => Nat.lt_of_lt_of_le h hx) fun _ _ => carries_bind .refl fun f _ => ?_
  simp only
  intro r h
  rw [bind_ok] at h ⊢
  obtain ⟨o, h1, h2⟩ := h
  cases o with
  | none => cases h2
  | some a =>
    exact ⟨_, any_looser hlim (x := x) (b := CBid.new p sender c d ctx.height (nextNonce s)) hd hx hm h1, h2⟩

theorem accept_ask_looser {ctx : Ctx} {sender : Addr} {funds : List Coin} {id : Bytes} {d : Details} {x : Coin} {s : State}
    (hd : x.denom = d.price.denom) (hx : d.price.amount ≤ x.amount) :
    Carries (executeAcceptAsk p ctx sender funds id d s) (executeAcceptAsk p ctx sender funds id { d with price := x } s) := by
  unfold executeAcceptAsk
  refine carries_bind .refl fun _ _ => carries_bind .refl fun a _ => carries_bind ?_ fun _ _ => fun r h => h
  intro r h
  rw [ensure_ok, hasCoins_single] at h ⊢
  exact ⟨hd.trans h.1, Nat.le_trans h.2 hx⟩

theorem accept_looser {coll : Addr} {t : Bytes} {ctx : Ctx} {sender : Addr} {d : Details} {x : Coin} {s : State} {mb : MatchingBid} :
    Carries (acceptorAsk p ctx sender coll t d s >>= fun a => finalizeSale p ctx s a s.config mb false [])
      (acceptorAsk p ctx sender coll t { d with price := x } s >>= fun a => finalizeSale p ctx s a s.config mb false []) := by
  unfold acceptorAsk
  split
  · exact .refl
  · intro r h
    simp only [bind_ok, Except.ok.injEq] at h ⊢
    obtain ⟨a, ⟨u, h1, rfl⟩, h2⟩ := h
    exact ⟨_, ⟨u, h1, rfl⟩, h2⟩

theorem has_looser {y x : Coin} {d : Details} (hd : x.denom = d.price.denom) (hx : x.amount ≤ d.price.amount) {e : Err} :
    Carries (ensure (hasCoins [y] d.price = true) e) (ensure (hasCoins [y] x = true) e) := by
  intro r h
  rw [ensure_ok, hasCoins_single] at h ⊢
  exact ⟨h.1.trans hd.symm, Nat.le_trans hx h.2⟩

/-- C169: a trade made at once is the same with every limit that asks for less. -/
theorem C169_limit (hlim : 1 ≤ p.maxLimit) {ctx : Ctx} {sender : Addr} {funds : List Coin} {m : Exec} {x : Coin} {s s' : State} {msgs : List Msg}
    (hx : Looser x m) (h : execute p ctx sender funds m s = .ok (s', msgs)) :
    execute p ctx sender funds (withLimit x m) s = .ok (s', msgs) := by
  revert h
  generalize (s', msgs) = r
  revert r
  change Carries _ _
  cases m with
  | sellNft c t d =>
    obtain ⟨h1, h2, h3⟩ := hx
    refine carries_bind .refl fun c' hc => carries_details fun d' e => ?_
    rw [addrValidate_ok] at hc
    exact set_ask_looser hlim (by rw [← hc.2]; exact hc.1) (by rw [e]; exact h1) (by rw [e]; exact h2) h3
  | buySpecificNft c t d =>
    exact carries_bind .refl fun _ _ => carries_details fun d' e => set_bid_looser (by rw [e]; exact hx.1) (by rw [e]; exact hx.2)
  | buyCollectionNft c d =>
    exact carries_bind .refl fun _ _ => carries_details fun d' e =>
      set_cbid_looser hlim (by rw [e]; exact hx.1) (by rw [e]; exact hx.2.1) hx.2.2
  | acceptAsk id d =>
    exact carries_details fun d' e => accept_ask_looser (by rw [e]; exact hx.1) (by rw [e]; exact hx.2)
  | acceptBid id d =>
    refine carries_details fun d' e => ?_
    unfold executeAcceptBid
    exact carries_bind .refl fun b _ => carries_bind (has_looser (by rw [e]; exact hx.1) (by rw [e]; exact hx.2)) fun _ _ => accept_looser
  | acceptCollectionBid id t d =>
    refine carries_details fun d' e => ?_
    unfold executeAcceptCollectionBid
    exact carries_bind .refl fun b _ => carries_bind (has_looser (by rw [e]; exact hx.1) (by rw [e]; exact hx.2)) fun _ _ => accept_looser
  | _ => exact hx.elim

/-! ### Orders that trade when they are placed or changed -/

/-- What succeeds on the left with a result of the given kind succeeds on the right in the same way. -/
def CarriesIf {α : Type} (T : α → Prop) (x y : Res α) : Prop := ∀ r, x = .ok r → T r → y = .ok r

theorem carriesIf_bind {α β : Type} {T : β → Prop} {x y : Res α} {f g : α → Res β} (h : Carries x y) (hf : ∀ a, x = .ok a → CarriesIf T (f a) (g a)) :
    CarriesIf T (x >>= f) (y >>= g) := by
  intro r hr ht
  rw [bind_ok] at hr ⊢
  obtain ⟨a, h1, h2⟩ := hr
  exact ⟨a, h a h1, hf a h1 r h2 ht⟩

theorem carriesIf_details {T : State × List Msg → Prop} {d : Details} {x : Coin} {f g : Details → Out}
    (h : CarriesIf T (f d) (g { d with price := x })) :
    CarriesIf T (d.strToAddr p >>= f) (({ d with price := x } : Details).strToAddr p >>= g) := by
  intro r hr ht
  simp only [bind_ok, strToAddr_ok] at hr ⊢
  obtain ⟨_, ⟨h1, rfl⟩, h2⟩ := hr
  exact ⟨_, ⟨h1, rfl⟩, h r h2 ht⟩

/-- An NFT is sent. -/
def SendsNft (r : State × List Msg) : Prop := ∃ c t to, Msg.nft c t to ∈ r.2

theorem refund_none {S : State} {left : List Coin} {sender : Addr} : ¬ SendsNft (S, refund sender left []) := by
  rintro ⟨c, t, to, h⟩
  unfold refund at h
  split at h
  · cases h
  · simp [transferCoins] at h

theorem set_bid_order {ctx : Ctx} {sender : Addr} {funds : List Coin} {c : Addr} {t : Bytes} {d : Details} {x : Coin} {s : State}
    (hd : x.denom = d.price.denom) (hx : d.price.amount ≤ x.amount) :
    CarriesIf SendsNft (executeSetBid p ctx sender funds c t d false s) (executeSetBid p ctx sender funds c t { d with price := x } false s) := by
  unfold executeSetBid
  refine carriesIf_bind .refl fun _ _ => carriesIf_bind (price_looser hd fun h => Nat.lt_of_lt_of_le h hx) fun _ _ => carriesIf_bind .refl fun f _ => ?_
  simp only
  cases hm : (Bid.new p sender c t d ctx.height (nextNonce s)).matchWithAsk p { s with nonce := nextNonce s } with
  | none =>
    intro r h ht
    simp only [Bool.false_eq_true, if_false, bind_ok, Except.ok.injEq] at h
    obtain ⟨_, _, _, _, rfl⟩ := h
    exact absurd ht refund_none
  | some a =>
    have := buy_looser (x := x) (b := Bid.new p sender c t d ctx.height (nextNonce s)) hd hx hm
    change (Bid.new p sender c t { d with price := x } ctx.height (nextNonce s)).matchWithAsk p { s with nonce := nextNonce s } = some a at this
    rw [this]
    exact fun r h _ => h

theorem update_bid_order {ctx : Ctx} {sender : Addr} {funds : List Coin} {id : Bytes} {d : Details} {x : Coin} {s : State}
    (hd : x.denom = d.price.denom) (hx : d.price.amount ≤ x.amount) :
    CarriesIf SendsNft (executeUpdateBid p ctx sender funds id d s) (executeUpdateBid p ctx sender funds id { d with price := x } s) := by
  unfold executeUpdateBid
  refine carriesIf_bind .refl fun b0 _ => carriesIf_bind .refl fun _ _ => carriesIf_bind (price_looser hd fun h => Nat.lt_of_lt_of_le h hx) fun _ _ =>
    carriesIf_bind .refl fun f _ => carriesIf_bind .refl fun f _ => ?_
  simp only
  cases hm : ({ b0 with details := d } : Bid).matchWithAsk p s with
  | none =>
    intro r h ht
    simp only [bind_ok, Except.ok.injEq] at h
    obtain ⟨_, _, rfl⟩ := h
    exact absurd ht refund_none
  | some a =>
    have := buy_looser (x := x) (b := { b0 with details := d }) hd hx hm
    simp only at this
    rw [this]
    exact fun r h _ => h

theorem set_cbid_order (hlim : 1 ≤ p.maxLimit) {ctx : Ctx} {sender : Addr} {funds : List Coin} {c : Addr} {d : Details} {x : Coin} {s : State}
    (hd : x.denom = d.price.denom) (hx : d.price.amount ≤ x.amount) (hm : x.amount + 1 < 2^128) :
    CarriesIf SendsNft (executeSetCollectionBid p ctx sender funds c d false s)
      (executeSetCollectionBid p ctx sender funds c { d with price := x } false s) := by
  unfold executeSetCollectionBid
  refine carriesIf_bind .refl fun _ _ => carriesIf_bind (price_looser hd fun h => Nat.lt_of_lt_of_le h hx) fun _ _ => carriesIf_bind .refl fun f _ => ?_
  simp only
  intro r h ht
  rw [bind_ok] at h ⊢
  obtain ⟨o, h1, h2⟩ := h
  cases o with
  | none =>
    simp only [Bool.false_eq_true, if_false, bind_ok, Except.ok.injEq] at h2
    obtain ⟨_, _, _, _, rfl⟩ := h2
    exact absurd ht refund_none
  | some a =>
    exact ⟨_, any_looser hlim (x := x) (b := CBid.new p sender c d ctx.height (nextNonce s)) hd hx hm h1, h2⟩

theorem update_cbid_order (hlim : 1 ≤ p.maxLimit) {ctx : Ctx} {sender : Addr} {funds : List Coin} {id : Bytes} {d : Details} {x : Coin} {s : State}
    (hd : x.denom = d.price.denom) (hx : d.price.amount ≤ x.amount) (hm : x.amount + 1 < 2^128) :
    CarriesIf SendsNft (executeUpdateCollectionBid p ctx sender funds id d s)
      (executeUpdateCollectionBid p ctx sender funds id { d with price := x } s) := by
  unfold executeUpdateCollectionBid
  refine carriesIf_bind .refl fun b0 _ => carriesIf_bind .refl fun _ _ => carriesIf_bind (price_looser hd fun h => Nat.lt_of_lt_of_le h hx) fun _ _ =>
    carriesIf_bind .refl fun f _ => carriesIf_bind .refl fun f _ => ?_
  simp only
  intro r h ht
  rw [bind_ok] at h ⊢
  obtain ⟨o, h1, h2⟩ := h
  cases o with
  | none =>
    simp only [bind_ok, Except.ok.injEq] at h2
    obtain ⟨_, _, rfl⟩ := h2
    exact absurd ht refund_none
  | some a =>
    exact ⟨_, any_looser hlim (x := x) (b := { b0 with details := d }) hd hx hm h1, h2⟩

theorem set_ask_order (hlim : 1 ≤ p.maxLimit) {ctx : Ctx} {sender : Addr} {funds : List Coin} {c : Addr} {t : Bytes} {d : Details} {x : Coin} {s : State}
    (hv : p.valid c = true) (hd : x.denom = d.price.denom) (hx : x.amount ≤ d.price.amount) (h0 : 0 < x.amount) :
    CarriesIf (fun r => Trades (.setAsk c t d) r.1 ctx.self r.2) (executeSetAsk p ctx sender funds c t d false s)
      (executeSetAsk p ctx sender funds c t { d with price := x } false s) := by
  unfold executeSetAsk
  refine carriesIf_bind .refl fun _ _ => carriesIf_bind .refl fun _ _ => carriesIf_bind (price_looser hd fun _ => h0) fun _ _ =>
    carriesIf_bind .refl fun _ _ => carriesIf_bind .refl fun _ _ => carriesIf_bind .refl fun _ _ => ?_
  simp only
  cases hm : (Ask.new p sender c t d).matchWithBid p s with
  | none =>
    intro r h ht
    simp only [Bool.false_eq_true, if_false, bind_ok, Except.ok.injEq] at h
    obtain ⟨_, _, rfl⟩ := h
    obtain ⟨c', t', to, h1, _, h2⟩ := ht
    simp only [transferCoin, transferNft, List.cons_append, List.nil_append, List.mem_cons, reduceCtorEq, false_or, List.not_mem_nil, or_false, Msg.nft.injEq] at h1
    obtain ⟨rfl, rfl, rfl⟩ := h1
    exact absurd ⟨rfl, _, _, d, rfl, AMap.get?_insert_self _ _ _, rfl, rfl, rfl⟩ h2
  | some mb =>
    have := sell_looser hlim (x := x) (a := Ask.new p sender c t d) hv hd hx hm
    change (Ask.new p sender c t { d with price := x }).matchWithBid p s = some mb at this
    rw [this]
    exact fun r h _ => h

theorem update_ask_order (hlim : 1 ≤ p.maxLimit) {ctx : Ctx} {sender : Addr} {funds : List Coin} {id : Bytes} {d : Details} {x : Coin} {s : State}
    (hw : WF p s) (hd : x.denom = d.price.denom) (hx : x.amount ≤ d.price.amount) (h0 : 0 < x.amount) :
    CarriesIf SendsNft (executeUpdateAsk p ctx sender funds id d s) (executeUpdateAsk p ctx sender funds id { d with price := x } s) := by
  unfold executeUpdateAsk
  refine carriesIf_bind .refl fun _ _ => carriesIf_bind .refl fun a0 ha => carriesIf_bind .refl fun _ _ => carriesIf_bind (price_looser hd fun _ => h0) fun _ _ => ?_
  simp only
  rw [orErr_ok] at ha
  cases hm : ({ a0 with details := d } : Ask).matchWithBid p s with
  | none =>
    intro r h ht
    cases h
    obtain ⟨_, _, _, h⟩ := ht
    cases h
  | some mb =>
    have := sell_looser hlim (x := x) (a := { a0 with details := d }) (hw.ask ha).2.2.1 hd hx hm
    simp only at this
    rw [this]
    exact fun r h _ => h

/-- C169: an order that trades when it is placed or changed makes the same trade with every price that asks for less. -/
theorem C169_order (hlim : 1 ≤ p.maxLimit) {me : Addr} {G : State → Prop} {s s' : State} (hr : Reach p me G s) {ctx : Ctx} {sender : Addr} {funds : List Coin}
    {m : Exec} {x : Coin} {msgs : List Msg} (hx : LooserOrder x m) (h : execute p ctx sender funds m s = .ok (s', msgs))
    (ht : Trades m s' ctx.self msgs) : execute p ctx sender funds (withLimit x m) s = .ok (s', msgs) := by
  have hs : SendsNft (s', msgs) := by
    obtain ⟨c, t, to, h1, _⟩ := ht
    exact ⟨c, t, to, h1⟩
  cases m with
  | setAsk c t d =>
    obtain ⟨h1, h2, h3⟩ := hx
    refine carriesIf_bind (T := fun r => Trades (.setAsk c t d) r.1 ctx.self r.2) .refl (fun c' hc => ?_) _ h ht
    rw [addrValidate_ok] at hc
    obtain ⟨hc, rfl⟩ := hc
    exact carriesIf_details (set_ask_order hlim hc h1 h2 h3)
  | updateAsk id d => exact carriesIf_details (update_ask_order hlim hr.wf hx.1 hx.2.1 hx.2.2) _ h hs
  | setBid c t d => exact carriesIf_bind .refl (fun _ _ => carriesIf_details (set_bid_order hx.1 hx.2)) _ h hs
  | updateBid id d => exact carriesIf_details (update_bid_order hx.1 hx.2) _ h hs
  | setCollectionBid c d => exact carriesIf_bind .refl (fun _ _ => carriesIf_details (set_cbid_order hlim hx.1 hx.2.1 hx.2.2)) _ h hs
  | updateCollectionBid id d => exact carriesIf_details (update_cbid_order hlim hx.1 hx.2.1 hx.2.2) _ h hs
  | _ => exact hx.elim
end

namespace Sample
/-- bob buys the listing at 100 with a limit of 110, and gets the same with a limit of 5000 -/
example := C169_limit (p := P) (m := .acceptAsk aid (det 110)) (by decide) (x := ⟨ust, 5000⟩) ⟨rfl, by decide⟩ buy_ok
/-- bob buys any token with a limit of 150, and gets the same with a limit of 5000 -/
example := C169_limit (p := P) (m := .buyCollectionNft coll (det 150)) (by decide) (x := ⟨ust, 5000⟩) ⟨rfl, by decide, by decide⟩ buyAny_ok
/-- alice sells into bob's bid of 80 while asking for at least 80, and gets the same when asking for at least 1 -/
example := C169_limit (p := P) (m := .acceptBid bid (det 80)) (by decide) (x := ⟨ust, 1⟩) ⟨rfl, by decide⟩ acc_ok
/-- alice sells to the best bid while asking for at least 50, and gets the same when asking for at least 1 -/
example := C169_limit (p := P) (m := dpSell) (by decide) (x := ⟨ust, 1⟩) ⟨rfl, by decide, by decide⟩ dpR1_ok
/-- alice lowers the price of a listing to 75, which sells it to carol for 90, as lowering it to 1 does -/
example := C169_order (p := P) (m := .updateAsk aid (det 75)) (by decide) r4 (x := ⟨ust, 1⟩) ⟨rfl, by decide, by decide⟩ upd_ok
  ⟨coll, tok, carol, by decide +kernel, fun _ h => (by cases h), fun h => absurd h.1 (by decide)⟩
/-- bob raises a bid to 110, which buys the token for 100, as raising it to 150 does -/
theorem lim_ok : execute P (ctx (some self)) bob [⟨ust, 70⟩] (.updateBid bid (det 110)) s4 =
    .ok (run (ctx (some self)) bob [⟨ust, 70⟩] (.updateBid bid (det 110)) s4) := run_eq (by decide +kernel)
example := C169_order (p := P) (m := .updateBid bid (det 110)) (by decide) r4 (x := ⟨ust, 150⟩) ⟨rfl, by decide⟩ lim_ok
  ⟨coll, tok, bob, by decide +kernel, fun _ h => (by cases h), fun h => absurd h.1 (by decide)⟩
end Sample

end Verif.V2

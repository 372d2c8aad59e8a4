/-
Marketplace v1: who gave the open orders their terms (C129), and what a seller that accepts a bid is paid (C130).
-/
import Verif.V1.PropsPurse

namespace Verif.V1
open Verif Spec

section
variable {p : Params} {me : Addr}

/-! ### Specification -/

/-- What a lookup finds now was put there by call `x` of the history, and every call since has left it there. -/
def Spec.Stands {V : Type} (get : State → Option V) (v : V) (x : Act) (l : List Act) : Prop :=
  ∃ l1 l2, l = l1 ++ x :: l2 ∧ get x.after = some v ∧ ∀ y ∈ l1, get y.before = some v ∧ get y.after = some v

/-- The terms of a listing apart from price and activity. -/
structure Spec.Offer where
  seller : Addr
  saleType : SaleType
  payee : Option Addr
  reserved : Option Addr
  fee : Option Nat
  until_ : Nat

/-- The offer, the price and the activity of the listing of a token. -/
def Spec.offerOf (c : Addr) (t : Nat) (s : State) : Option Offer :=
  (s.asks.get? (c, t)).map (fun a => ⟨a.seller, a.saleType, a.fundsRecipient, a.reserveFor, a.findersFee, a.expiresAt⟩)
def Spec.priceOn (c : Addr) (t : Nat) (s : State) : Option (Addr × Nat) := (s.asks.get? (c, t)).map (fun a => (a.seller, a.price))
def Spec.activeOn (c : Addr) (t : Nat) (s : State) : Option (Addr × Bool) := (s.asks.get? (c, t)).map (fun a => (a.seller, a.isActive))

/-- The call is the seller's own and lists the token on these terms. -/
def Spec.GaveOffer (c : Addr) (t : Nat) (o : Offer) (x : Act) : Prop :=
  x.sender = o.seller ∧ ∃ pr, x.m = .setAsk o.saleType c t pr o.payee o.reserved o.fee o.until_

/-- The call names the price. -/
def Spec.NamesPrice (c : Addr) (t : Nat) (n : Nat) (m : Exec) : Prop :=
  (∃ ty r v f e, m = .setAsk ty c t ⟨ustars, n⟩ r v f e) ∨ m = .updateAskPrice c t ⟨ustars, n⟩

/-- The call names the price and is the seller's own. -/
def Spec.GavePrice (c : Addr) (t : Nat) (v : Addr × Nat) (x : Act) : Prop := x.sender = v.1 ∧ NamesPrice c t v.2 x.m

/-- The call names the price and is the seller's own, or that of an account that owned the token then. -/
def Spec.OwnerPrice (c : Addr) (t : Nat) (v : Addr × Nat) (x : Act) : Prop :=
  GavePrice c t v x ∨ (x.m = .updateAskPrice c t ⟨ustars, v.2⟩ ∧ x.q.ownerOf c (tokStr t) = some x.sender)

/-- A listing starts active; an operator sets it to the approval the collection reports. -/
def Spec.GaveActive (c : Addr) (t : Nat) (v : Addr × Bool) (x : Act) : Prop :=
  (x.sender = v.1 ∧ v.2 = true ∧ ∃ ty pr r w f e, x.m = .setAsk ty c t pr r w f e) ∨
  (x.m = .syncAsk c t ∧ x.sender ∈ x.before.params.operators ∧ x.q.approval c (tokStr t) = v.2)

/-- The bidder's own call, with the price attached. -/
def Spec.GaveBid (b : Bid) (x : Act) : Prop :=
  x.sender = b.bidder ∧ x.funds = [⟨ustars, b.price⟩] ∧
  ((∃ ty f, x.m = .setBid b.collection b.tokenId b.expiresAt ty f b.findersFee) ∨
   (∃ f, x.m = .buyNow b.collection b.tokenId b.expiresAt f b.findersFee) ∨
   ∃ f r, x.m = .buyFor b.collection b.tokenId b.expiresAt f b.findersFee r)

def Spec.GaveCBid (b : CBid) (x : Act) : Prop :=
  x.sender = b.bidder ∧ x.funds = [⟨ustars, b.price⟩] ∧ x.m = .setCollectionBid b.collection b.expiresAt b.findersFee

/-- The price of every listing was named by its seller. -/
def C129_statement : Prop :=
  ∀ (p : Params) (me : Addr) (i : Init) (s0 s : State) (l : List Act), instantiate p i = .ok s0 → Diary p me s0 l s →
    ∀ c t v, priceOn c t s = some v → ∃ x, GavePrice c t v x ∧ Stands (priceOn c t) v x l

/-- A seller that accepts a bid it has seen is paid on no less than the price it has seen, whatever calls come first. -/
def C130_statement : Prop :=
  ∀ (p : Params) (me : Addr) (s s' s'' : State) (l : List Act) (ctx : Ctx) (seller : Addr) (funds : List Coin) (c : Addr) (t : Nat)
    (b : Addr) (bid : Bid) (f : Option Addr) (msgs : List Msg) (T : Terms), Reach p me s → s.bids.get? (c, t, b) = some bid →
    Diary p me s l s' → ctx.self = me → execute p ctx seller funds (.acceptBid c t b f) s' = .ok (s'', msgs) →
    terms s' seller (.acceptBid c t b f) = some T → bid.price ≤ T.price

/-! ### Lemmas -/

/-- What is there now was there from the beginning on, or was put there by some call. -/
theorem stands {V : Type} {get : State → Option V} {Gave : V → Act → Prop} {s0 s : State} {l : List Act}
    (step : ∀ {ctx : Ctx} {sender : Addr} {funds : List Coin} {m : Exec} {s s' : State} {msgs : List Msg},
      execute p ctx sender funds m s = .ok (s', msgs) → ∀ {v}, get s' = some v →
      get s = some v ∨ Gave v ⟨ctx.q, s, sender, funds, m, s', msgs⟩)
    (gov : ∀ {ctx : Ctx} {m : Sudo} {s s' : State} {msgs : List Msg}, V1.sudo p ctx m s = .ok (s', msgs) → get s' = get s)
    (h : Diary p me s0 l s) {v : V} (hv : get s = some v) : get s0 = some v ∨ ∃ x, Gave v x ∧ Stands get v x l := by
  induction h with
  | nil => exact .inl hv
  | @call l s s' ctx sender funds m msgs hd hself hne hx ih =>
    rcases step hx hv with h | h
    · rcases ih h with h0 | ⟨x, hg, l1, l2, e, ha, hb⟩
      · exact .inl h0
      · refine .inr ⟨x, hg, _ :: l1, l2, by rw [e]; rfl, ha, ?_⟩
        intro y hy
        rcases List.mem_cons.mp hy with rfl | hy
        · exact ⟨h, hv⟩
        · exact hb y hy
    · exact .inr ⟨_, h, [], l, rfl, hv, by intro y hy; cases hy⟩
  | sudo hd hself hx ih => exact ih (gov hx ▸ hv)

theorem ins_cases {K V : Type} [DecidableEq K] {m : AMap K V} {k id : K} {v w : V} (h : (m.insert k v).get? id = some w) :
    (k = id ∧ w = v) ∨ m.get? id = some w := by
  rw [AMap.get?_insert] at h
  split at h
  · rename_i e; exact .inl ⟨e, (Option.some.inj h).symm⟩
  · exact .inr h

theorem del_cases {K V : Type} [DecidableEq K] {m : AMap K V} {k id : K} {w : V} (h : (m.erase k).get? id = some w) :
    m.get? id = some w := by
  rw [AMap.get?_erase] at h
  split at h
  · cases h
  · exact h

/-- A listing after a call: as before, listed by the call, repriced, or synced. -/
theorem ask_after {ctx : Ctx} {sender : Addr} {funds : List Coin} {m : Exec} {s s' : State} {msgs : List Msg}
    (e : Eff p ctx sender funds s m s' msgs) {c : Addr} {t : Nat} {a : Ask} (h : s'.asks.get? (c, t) = some a) :
    s.asks.get? (c, t) = some a ∨
    (∃ ty n r v f x, m = .setAsk ty c t ⟨NATIVE, n⟩ r v f x ∧ a = ⟨ty, c, t, sender, n, r, v, f, x, true⟩) ∨
    (∃ n a', m = .updateAskPrice c t ⟨NATIVE, n⟩ ∧ s.asks.get? (c, t) = some a' ∧ a = { a' with price := n } ∧
      ctx.q.ownerOf c (tokStr t) = some sender) ∨
    (∃ a', m = .syncAsk c t ∧ s.asks.get? (c, t) = some a' ∧ a = { a' with isActive := ctx.q.approval c (tokStr t) } ∧
      sender ∈ s.params.operators) := by
  cases e with
  | setAsk ty coll tok price r v f x paid hv hpos hden =>
    rcases ins_cases h with ⟨hk, rfl⟩ | h
    · cases hk
      obtain ⟨d, n⟩ := price
      dsimp only at hden; subst hden
      exact .inr (.inl ⟨_, _, _, _, _, _, rfl, rfl⟩)
    · exact .inl h
  | updatePrice coll tok price a' hv hf hown hpos hden hmin ha =>
    rcases ins_cases h with ⟨hk, rfl⟩ | h
    · cases hk
      obtain ⟨d, n⟩ := price
      dsimp only at hden; subst hden
      exact .inr (.inr (.inl ⟨_, _, rfl, ha, rfl, hown⟩))
    · exact .inl h
  | syncAsk coll tok a' hv hf hop ha =>
    rcases ins_cases h with ⟨hk, rfl⟩ | h
    · cases hk
      exact .inr (.inr (.inr ⟨_, rfl, ha, rfl, hop⟩))
    · exact .inl h
  | removeAsk => exact .inl (del_cases h)
  | bought => exact .inl (del_cases h)
  | acceptBid => exact .inl (del_cases h)
  | acceptCBid => exact .inl (del_cases h)
  | staleAsk => exact .inl (del_cases h)
  | _ => exact .inl h

theorem bid_after {ctx : Ctx} {sender : Addr} {funds : List Coin} {m : Exec} {s s' : State} {msgs : List Msg}
    (e : Eff p ctx sender funds s m s' msgs) {k : Addr × Nat × Addr} {b : Bid} (h : s'.bids.get? k = some b) :
    s.bids.get? k = some b ∨ (k = (b.collection, b.tokenId, b.bidder) ∧ GaveBid b ⟨ctx.q, s, sender, funds, m, s', msgs⟩) := by
  cases e with
  | bidSaved m a price hm hv hfi hfee hfunds =>
    rcases ins_cases h with ⟨rfl, rfl⟩ | h
    · refine .inr ⟨rfl, rfl, by rw [ustars_eq]; exact hfunds, ?_⟩
      cases m <;> simp only [bidArgs] at hm <;> first | cases hm | skip
      · exact .inl ⟨_, _, rfl⟩
      · exact .inr (.inl ⟨_, rfl⟩)
      · exact .inr (.inr ⟨_, _, rfl⟩)
    · exact .inl (del_cases h)
  | bought => exact .inl (del_cases h)
  | acceptBid => exact .inl (del_cases h)
  | removeBid => exact .inl (del_cases h)
  | rejectBid => exact .inl (del_cases h)
  | staleBid => exact .inl (del_cases h)
  | _ => exact .inl h

theorem cbid_after {ctx : Ctx} {sender : Addr} {funds : List Coin} {m : Exec} {s s' : State} {msgs : List Msg}
    (e : Eff p ctx sender funds s m s' msgs) {k : Addr × Addr} {b : CBid} (h : s'.cbids.get? k = some b) :
    s.cbids.get? k = some b ∨ (k = (b.collection, b.bidder) ∧ GaveCBid b ⟨ctx.q, s, sender, funds, m, s', msgs⟩) := by
  cases e with
  | setCBid coll expires fee price hv hfunds =>
    rcases ins_cases h with ⟨rfl, rfl⟩ | h
    · exact .inr ⟨rfl, rfl, by rw [ustars_eq]; exact hfunds, rfl⟩
    · exact .inl h
  | removeCBid => exact .inl (del_cases h)
  | acceptCBid => exact .inl (del_cases h)
  | staleCBid => exact .inl (del_cases h)
  | _ => exact .inl h

theorem sudo_same {ctx : Ctx} {m : Sudo} {s s' : State} {msgs : List Msg} (h : V1.sudo p ctx m s = .ok (s', msgs)) :
    s'.asks = s.asks ∧ s'.bids = s.bids ∧ s'.cbids = s.cbids := by
  obtain ⟨e1, e2, e3, _⟩ := (sudo_eff h).1.orders
  exact ⟨e1, e2, e3⟩

theorem diary_from {s s' : State} {l : List Act} (hr : Reach p me s) (h : Diary p me s l s') : Reach p me s' := by
  induction h with
  | nil => exact hr
  | call _ hself hne h ih => exact ih.step (.call hself hne h)
  | sudo _ hself h ih => exact ih.step (.sudo hself h)

theorem diary_last {s0 s : State} {x : Act} {l : List Act} (h : Diary p me s0 (x :: l) s) :
    ∃ ctx : Ctx, ctx.q = x.q ∧ Diary p me s0 l x.before ∧ execute p ctx x.sender x.funds x.m x.before = .ok (x.after, x.sent) := by
  generalize hl : x :: l = l' at h
  induction h with
  | nil => cases hl
  | call hd hself hne hx => cases hl; exact ⟨_, rfl, hd, hx⟩
  | sudo hd hself hx ih => exact ih hl

/-! ### Properties -/

/-- Seller, payee, reservation, finder's fee, kind and end of a listing are as the seller's own call set them, and have not been
touched since. -/
theorem C129_offer {i : Init} {s0 s : State} {l : List Act} (hi : instantiate p i = .ok s0) (h : Diary p me s0 l s) {c : Addr} {t : Nat}
    {o : Offer} (ho : offerOf c t s = some o) : ∃ x, GaveOffer c t o x ∧ Stands (offerOf c t) o x l := by
  refine (stands (Gave := GaveOffer c t) ?_ ?_ h ho).resolve_left ?_
  · intro ctx sender funds m s s' msgs hx v hv
    obtain ⟨a, ha, rfl⟩ := Option.map_eq_some_iff.mp hv
    rcases ask_after (execute_eff hx) ha with h | ⟨ty, n, r, w, f, x, rfl, rfl⟩ | ⟨n, a', rfl, h, rfl, _⟩ | ⟨a', rfl, h, rfl, _⟩
    · exact .inl (by unfold offerOf; rw [h]; rfl)
    · exact .inr ⟨rfl, _, rfl⟩
    · exact .inl (by unfold offerOf; rw [h]; rfl)
    · exact .inl (by unfold offerOf; rw [h]; rfl)
  · intro ctx m s s' msgs hx
    unfold offerOf; rw [(sudo_same hx).1]
  · unfold offerOf; rw [(init_empty hi).1]; simp

/-- The price was named by the seller or by an account that owned the token then. -/
theorem C129_partial_price {i : Init} {s0 s : State} {l : List Act} (hi : instantiate p i = .ok s0) (h : Diary p me s0 l s) {c : Addr}
    {t : Nat} {v : Addr × Nat} (ho : priceOn c t s = some v) : ∃ x, OwnerPrice c t v x ∧ Stands (priceOn c t) v x l := by
  refine (stands (Gave := OwnerPrice c t) ?_ ?_ h ho).resolve_left ?_
  · intro ctx sender funds m s s' msgs hx v hv
    obtain ⟨a, ha, rfl⟩ := Option.map_eq_some_iff.mp hv
    rcases ask_after (execute_eff hx) ha with h | ⟨ty, n, r, w, f, x, rfl, rfl⟩ | ⟨n, a', rfl, h, rfl, hown⟩ | ⟨a', rfl, h, rfl, _⟩
    · exact .inl (by unfold priceOn; rw [h]; rfl)
    · exact .inr (.inl ⟨rfl, .inl ⟨_, _, _, _, _, by rw [ustars_eq]⟩⟩)
    · exact .inr (.inr ⟨by rw [ustars_eq], hown⟩)
    · exact .inl (by unfold priceOn; rw [h]; rfl)
  · intro ctx m s s' msgs hx
    unfold priceOn; rw [(sudo_same hx).1]
  · unfold priceOn; rw [(init_empty hi).1]; simp

/-- If nobody but the seller has repriced the token, the price was named by the seller. -/
theorem C129_partial {i : Init} {s0 s : State} {l : List Act} (hi : instantiate p i = .ok s0) (h : Diary p me s0 l s) {c : Addr}
    {t : Nat} {v : Addr × Nat} (ho : priceOn c t s = some v) (hrep : ∀ x ∈ l, ∀ n, x.m = .updateAskPrice c t n → x.sender = v.1) :
    ∃ x, GavePrice c t v x ∧ Stands (priceOn c t) v x l := by
  obtain ⟨x, hx, l1, l2, e, hs⟩ := C129_partial_price hi h ho
  refine ⟨x, ?_, l1, l2, e, hs⟩
  rcases hx with hx | ⟨hx, _⟩
  · exact hx
  · exact ⟨hrep x (by rw [e]; simp) _ hx, .inr hx⟩

/-- A listing is active from the start, until an operator sets it to what the collection reports. -/
theorem C129_active {i : Init} {s0 s : State} {l : List Act} (hi : instantiate p i = .ok s0) (h : Diary p me s0 l s) {c : Addr}
    {t : Nat} {v : Addr × Bool} (ho : activeOn c t s = some v) : ∃ x, GaveActive c t v x ∧ Stands (activeOn c t) v x l := by
  refine (stands (Gave := GaveActive c t) ?_ ?_ h ho).resolve_left ?_
  · intro ctx sender funds m s s' msgs hx v hv
    obtain ⟨a, ha, rfl⟩ := Option.map_eq_some_iff.mp hv
    rcases ask_after (execute_eff hx) ha with h | ⟨ty, n, r, w, f, x, rfl, rfl⟩ | ⟨n, a', rfl, h, rfl, hown⟩ | ⟨a', rfl, h, rfl, hop⟩
    · exact .inl (by unfold activeOn; rw [h]; rfl)
    · exact .inr (.inl ⟨rfl, rfl, _, _, _, _, _, _, rfl⟩)
    · exact .inl (by unfold activeOn; rw [h]; rfl)
    · exact .inr (.inr ⟨rfl, hop, rfl⟩)
  · intro ctx m s s' msgs hx
    unfold activeOn; rw [(sudo_same hx).1]
  · unfold activeOn; rw [(init_empty hi).1]; simp

/-- A bid was made by the bidder, with the price attached, and has not been touched since. -/
theorem C129_bid {i : Init} {s0 s : State} {l : List Act} (hi : instantiate p i = .ok s0) (h : Diary p me s0 l s)
    {k : Addr × Nat × Addr} {b : Bid} (hb : s.bids.get? k = some b) : ∃ x, GaveBid b x ∧ Stands (fun s => s.bids.get? k) b x l := by
  refine (stands (get := fun s => s.bids.get? k) (Gave := GaveBid) ?_ ?_ h hb).resolve_left ?_
  · intro ctx sender funds m s s' msgs hx v hv
    exact (bid_after (execute_eff hx) hv).imp id And.right
  · intro ctx m s s' msgs hx
    show AMap.get? _ _ = _; rw [(sudo_same hx).2.1]
  · show ¬ (AMap.get? _ _ = _); rw [(init_empty hi).2.1]; simp

theorem C129_cbid {i : Init} {s0 s : State} {l : List Act} (hi : instantiate p i = .ok s0) (h : Diary p me s0 l s)
    {k : Addr × Addr} {b : CBid} (hb : s.cbids.get? k = some b) : ∃ x, GaveCBid b x ∧ Stands (fun s => s.cbids.get? k) b x l := by
  refine (stands (get := fun s => s.cbids.get? k) (Gave := GaveCBid) ?_ ?_ h hb).resolve_left ?_
  · intro ctx sender funds m s s' msgs hx v hv
    exact (cbid_after (execute_eff hx) hv).imp id And.right
  · intro ctx m s s' msgs hx
    show AMap.get? _ _ = _; rw [(sudo_same hx).2.2]
  · show ¬ (AMap.get? _ _ = _); rw [(init_empty hi).2.2]; simp

/-- Both sides of a sale asked for it: one by the call itself, the other by an earlier call that gave the listing or the bid its
terms, which have not been touched since. -/
theorem C129_sale {i : Init} {s0 s : State} {x : Act} {l : List Act} (hi : instantiate p i = .ok s0) (h : Diary p me s0 (x :: l) s)
    (hh : handed x.sent ≠ []) : ∃ T, x.sale = some T ∧ handed x.sent = [(T.coll, tokStr T.tok, T.recipient)] ∧
    ((x.sender = T.seller ∧ ∃ b y, b.bidder = T.buyer ∧ b.collection = T.coll ∧ b.tokenId = T.tok ∧ b.price = T.price ∧ GaveBid b y ∧
        Stands (fun s => s.bids.get? (T.coll, T.tok, T.buyer)) b y l) ∨
     (x.sender = T.seller ∧ ∃ b y, b.bidder = T.buyer ∧ b.collection = T.coll ∧ b.price = T.price ∧ GaveCBid b y ∧
        Stands (fun s => s.cbids.get? (T.coll, T.buyer)) b y l) ∨
     (x.sender = T.buyer ∧ x.funds = [⟨ustars, T.price⟩] ∧ ∃ o y, o.seller = T.seller ∧ o.payee.getD o.seller = T.payee ∧ o.fee = T.fee ∧
        GaveOffer T.coll T.tok o y ∧ Stands (offerOf T.coll T.tok) o y l)) := by
  obtain ⟨ctx, hq, hd, hx⟩ := diary_last h
  have hr := diary_reach hi hd
  have hw := hr.wf
  obtain ⟨T, h1, h2, h3, h4, h5⟩ := C49_consent hr hx hh
  refine ⟨T, by unfold Act.sale; rw [if_neg hh, h1], h2, ?_⟩
  rcases h5 with ⟨e1, _, ⟨b, hb, hp, _⟩, _⟩ | ⟨e1, _, ⟨b, hb, hp, _⟩, _⟩ | ⟨e1, hon, hf, a, ha, _, _, _, hp, hs⟩
  · obtain ⟨y, g, st⟩ := C129_bid hi hd hb
    have hk := (hw.bids _ _ hb).key
    simp only [Prod.mk.injEq] at hk
    exact .inl ⟨e1.symm, b, y, hk.2.2, hk.1, hk.2.1, hp, g, st⟩
  · obtain ⟨y, g, st⟩ := C129_cbid hi hd hb
    have hk := (hw.cbids _ _ hb).key
    simp only [Prod.mk.injEq] at hk
    exact .inr (.inl ⟨e1.symm, b, y, hk.2, hk.1, hp, g, st⟩)
  · obtain ⟨y, g, st⟩ := C129_offer hi hd (c := T.coll) (t := T.tok)
      (o := ⟨a.seller, a.saleType, a.fundsRecipient, a.reserveFor, a.findersFee, a.expiresAt⟩) (by unfold offerOf; rw [ha]; rfl)
    have ht : a.fundsRecipient.getD a.seller = T.payee ∧ a.findersFee = T.fee := by
      cases hm : x.m <;> rw [hm] at h1 hon <;> first | exact absurd hon (fun h => h) | skip
      all_goals
        obtain ⟨k1, k2⟩ := hon
        simp only [terms, listed, k1, k2, ha, Option.map_some, Option.some.injEq] at h1
        rw [← h1]
        exact ⟨rfl, rfl⟩
    exact .inr (.inr ⟨e1.symm, hf, _, y, hs, ht.1, ht.2, g, st⟩)

/-- If the bidder itself makes no call in between, a seller that accepts a bid is paid on the price it has seen. -/
theorem C130_partial {s s' : State} {l : List Act} {c : Addr} {t : Nat} {b : Addr} {bid : Bid} {f : Option Addr} {seller : Addr} {T : Terms}
    (hr : Reach p me s) (hb : s.bids.get? (c, t, b) = some bid) (h : Diary p me s l s') (hnot : ∀ x ∈ l, x.sender ≠ b)
    (ht : terms s' seller (.acceptBid c t b f) = some T) : T.price = bid.price := by
  obtain ⟨b', hb', rfl⟩ := Option.map_eq_some_iff.mp ht
  have hw : b'.bidder = b := congrArg (fun k => k.2.2) ((diary_from hr h).wf.bids _ _ hb').key
  rcases stands (get := fun s => s.bids.get? (c, t, b)) (Gave := GaveBid)
    (fun hx _ hv => (bid_after (execute_eff hx) hv).imp id And.right)
    (fun hx => by show AMap.get? _ _ = _; rw [(sudo_same hx).2.1]) h hb' with h0 | ⟨x, hx, l1, l2, e, _⟩
  · rw [hb] at h0; cases h0; rfl
  · exact absurd (hx.1.trans hw) (hnot x (by rw [e]; simp))

theorem C130_partial_any {s s' : State} {l : List Act} {c : Addr} {t : Nat} {b : Addr} {bid : CBid} {f : Option Addr} {seller : Addr}
    {T : Terms} (hr : Reach p me s) (hb : s.cbids.get? (c, b) = some bid) (h : Diary p me s l s') (hnot : ∀ x ∈ l, x.sender ≠ b)
    (ht : terms s' seller (.acceptCollectionBid c t b f) = some T) : T.price = bid.price := by
  obtain ⟨b', hb', rfl⟩ := Option.map_eq_some_iff.mp ht
  have hw : b'.bidder = b := congrArg (fun k => k.2) ((diary_from hr h).wf.cbids _ _ hb').key
  rcases stands (get := fun s => s.cbids.get? (c, b)) (Gave := GaveCBid)
    (fun hx _ hv => (cbid_after (execute_eff hx) hv).imp id And.right)
    (fun hx => by show AMap.get? _ _ = _; rw [(sudo_same hx).2.2]) h hb' with h0 | ⟨x, hx, l1, l2, e, _⟩
  · rw [hb] at h0; cases h0; rfl
  · exact absurd (hx.1.trans hw) (hnot x (by rw [e]; simp))

/-! ### Counterexamples -/

namespace Sample
/-- alice lists for 101; bob gets the token from alice outside of the marketplace and lowers the price of alice's listing to 5 -/
def lower : Exec := .updateAskPrice coll 1 ⟨NATIVE, 5⟩
def t4 : State := (run (ctx 1001 (some bob)) bob [] lower s3).1
def lowered : List Act := [noteAct (ctx 1001 (some bob)) bob [] lower s3, noteAct (ctx 1000) alice (us 3) askMsg s2]

theorem before_ok : Diary P self s0 [noteAct (ctx 1000) alice (us 3) askMsg s2] s3 := by
  have q1 : sok (ctx 1000) (.addAskHook hk) s0 = true := by decide +kernel
  have d1 : Diary P self s0 [] s1 := .sudo (ctx := ctx 1000) .nil rfl (srun_eq q1)
  have q2 : sok (ctx 1000) (.addBidHook hk) s1 = true := by decide +kernel
  have d2 : Diary P self s0 [] s2 := .sudo (ctx := ctx 1000) d1 rfl (srun_eq q2)
  exact note d2 rfl (by decide) (by decide +kernel)

theorem lowered_ok : Diary P self s0 lowered t4 := note before_ok rfl (by decide) (by decide +kernel)

/-- When the token is back with alice, it can be bought for 5. -/
example : handed (run (ctx 1002) carol (us 5) buyMsg t4).2 = [(coll, [49], carol)] ∧ sentTo alice ustars (run (ctx 1002) carol (us 5) buyMsg t4).2 = 4 := by
  decide +kernel

/-- bob bids 60 for the token of alice, and replaces the bid by one of 5 before alice accepts -/
def cut4 : State := (run (ctx 1001) bob (us 5) bidMsg s4).1
def takeIt : Exec := .acceptBid coll 1 bob none
theorem cut_ok : Diary P self s4 [noteAct (ctx 1001) bob (us 5) bidMsg s4] cut4 := note .nil rfl (by decide) (by decide +kernel)
example : handed (run (ctx 1002) alice [] takeIt cut4).2 = [(coll, [49], bob)] ∧ sentTo alice ustars (run (ctx 1002) alice [] takeIt cut4).2 = 4 := by
  decide +kernel
end Sample

theorem C129_violated : ¬ C129_statement := by
  intro h
  obtain ⟨x, ⟨hs, hn⟩, l1, l2, e, _⟩ := h Sample.P Sample.self _ _ _ _ Sample.init0 Sample.lowered_ok Sample.coll 1 (Sample.alice, 5)
    (by decide +kernel)
  have hx : x ∈ Sample.lowered := by rw [e]; simp
  simp only [Sample.lowered, List.mem_cons, List.not_mem_nil, or_false] at hx
  rcases hx with rfl | rfl
  · exact absurd hs (by decide)
  · rcases hn with ⟨_, _, _, _, _, hn⟩ | hn
    · simp [Sample.noteAct, Sample.askMsg] at hn
    · simp [Sample.noteAct, Sample.askMsg] at hn

theorem C130_violated : ¬ C130_statement := by
  intro h
  have k := h Sample.P Sample.self Sample.s4 Sample.cut4 _ _ (Sample.ctx 1002) Sample.alice [] Sample.coll 1 Sample.bob
    ⟨Sample.coll, 1, Sample.bob, 60, some 300, 3000 * Sample.NSs⟩ none _
    ⟨Sample.coll, 1, 5, Sample.alice, Sample.alice, Sample.bob, Sample.bob, none, some 300⟩ Sample.r4 (by decide +kernel) Sample.cut_ok rfl
    (Sample.run_eq (m := Sample.takeIt) (by decide +kernel)) (by rfl)
  exact absurd k (by decide)

/-! ### Examples -/

namespace Sample
example := C129_offer init0 lowered_ok (c := coll) (t := 1) (o := ⟨alice, .fixedPrice, none, none, some 500, 2000 * NSs⟩) (by rfl)
example := C129_partial_price init0 lowered_ok (c := coll) (t := 1) (v := (alice, 5)) (by decide +kernel)
example := C129_partial init0 before_ok (c := coll) (t := 1) (v := (alice, 101)) (by decide +kernel)
  (by intro x hx n hm; rw [List.mem_singleton] at hx; subst hx; cases hm)
/-- carol buys from the listing of alice -/
theorem buy_ok : Diary P self s0 (diary.drop 1) s7 := by
  have o1 : ok (ctx 1000) bob (us 60) bidMsg s3 = true := by decide +kernel
  have o3 : ok (ctx 1000) carol (us 50) (.setCollectionBid coll (3000 * NSs) none) s4 = true := by decide +kernel
  have o4 : ok (ctx 1001) bob (us 70) bidMsg s5 = true := by decide +kernel
  have o5 : ok (ctx 1002) carol (us 101) buyMsg s6 = true := by decide +kernel
  exact note (note (note (note before_ok rfl (by decide) o1) rfl (by decide) o3) rfl (by decide) o4) rfl (by decide) o5
example := C129_sale init0 buy_ok (by decide +kernel)
example := C129_active init0 lowered_ok (c := coll) (t := 1) (v := (alice, true)) (by decide +kernel)
example := C129_bid init0 diary_ok (k := (coll, 1, bob)) (b := ⟨coll, 1, bob, 70, some 300, 3000 * NSs⟩) (by decide +kernel)

/-- carol bids 50 for anything in the collection -/
theorem coll_ok : Diary P self s0 [noteAct (ctx 1000) carol (us 50) (.setCollectionBid coll (3000 * NSs) none) s4,
    noteAct (ctx 1000) bob (us 60) bidMsg s3, noteAct (ctx 1000) alice (us 3) askMsg s2] s5 :=
  note (note before_ok rfl (by decide) (by decide +kernel)) rfl (by decide) (by decide +kernel)
example := C129_cbid init0 coll_ok (k := (coll, carol)) (b := ⟨coll, carol, 50, none, 3000 * NSs⟩) (by decide +kernel)

/-- between s5 and s6 only bob makes a call -/
theorem bob_raises : Diary P self s5 [noteAct (ctx 1001) bob (us 70) bidMsg s5] s6 := note .nil rfl (by decide) (by decide +kernel)
example := C130_partial_any (c := coll) (t := 1) (b := carol) (bid := ⟨coll, carol, 50, none, 3000 * NSs⟩) (f := none) (seller := alice)
  (T := ⟨coll, 1, 50, alice, alice, carol, carol, none, none⟩) r5 (by decide +kernel) bob_raises
  (by intro x hx; rw [List.mem_singleton] at hx; subst hx; decide) (by rfl)
/-- between s4 and s5 only carol does -/
theorem carol_bids : Diary P self s4 [noteAct (ctx 1000) carol (us 50) (.setCollectionBid coll (3000 * NSs) none) s4] s5 :=
  note .nil rfl (by decide) (by decide +kernel)
example := C130_partial (c := coll) (t := 1) (b := bob) (bid := ⟨coll, 1, bob, 60, some 300, 3000 * NSs⟩) (f := none) (seller := alice)
  (T := ⟨coll, 1, 60, alice, alice, bob, bob, none, some 300⟩) r4 (by decide +kernel) carol_bids
  (by intro x hx; rw [List.mem_singleton] at hx; subst hx; decide) (by rfl)
end Sample

end
end Verif.V1

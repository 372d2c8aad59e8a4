/-
Marketplace v1, properties about what is recorded: listings (C89), changes of listings (C90), bids (C91), refunds (C92),
accounting (C93), notifications (C94), buying now (C95).
-/
import Verif.V1.Hooks
import Verif.V1.Sample

namespace Verif.V1
open Verif Spec

variable {p : Params} {me : Addr} {honest : Addr → Prop}
variable {ctx : Ctx} {sender : Addr} {funds : List Coin} {m : Exec} {s s' : State} {msgs : List Msg}

/-! ### C89 -/

/-- A listing is made only by the token's owner, with the marketplace approved, after the collection's start of trading, with
an expiry in the configured range, a price in the native denom between the minimum and 10^14, reserved at most for somebody
else and only at a fixed price, for exactly the listing fee, which is burnt. It is recorded as given, active, for the caller;
nothing else in the store changes and nothing is paid. -/
theorem C89_set_ask {ty : SaleType} {c : Addr} {t : Nat} {price : Coin} {rcpt res : Option Addr} {fee : Option Nat} {e : Nat}
    (h : execute p ctx sender funds (.setAsk ty c t price rcpt res fee e) s = .ok (s', msgs)) :
    ctx.q.ownerOf c (tokStr t) = some sender ∧ ctx.q.approval c (tokStr t) = true ∧
    (∀ i st, ctx.q.collInfo c = some i → i.start = some st → st ≤ ctx.time) ∧
    ctx.time + s.params.askExpiry.min * 10^9 < e ∧ e ≤ ctx.time + s.params.askExpiry.max * 10^9 ∧
    price.denom = ustars ∧ 0 < price.amount ∧ s.params.minPrice ≤ price.amount ∧ price.amount ≤ 10^14 ∧
    (∀ r, res = some r → r ≠ sender ∧ ty = .fixedPrice) ∧ (∀ n, fee = some n → percent n ≤ s.params.maxFindersFee) ∧
    p.valid c = true ∧ (∀ x, rcpt = some x → p.valid x = true) ∧ (∀ x, res = some x → p.valid x = true) ∧
    amountOf ustars funds = s.params.listingFee ∧ funds.length ≤ 1 ∧ (∀ x ∈ funds, x.denom = ustars) ∧
    core msgs = (if s.params.listingFee = 0 then [] else [.fairBurn [⟨ustars, s.params.listingFee⟩]]) ∧
    s'.asks.get? (c, t) = some ⟨ty, c, t, sender, price.amount, rcpt, res, fee, e, true⟩ ∧
    (∀ k, k ≠ (c, t) → s'.asks.get? k = s.asks.get? k) ∧ s' = { s with asks := s'.asks } := by
  have hval : (∀ x, rcpt = some x → p.valid x = true) ∧ (∀ x, res = some x → p.valid x = true) := by
    simp only [execute, bind_ok] at h
    obtain ⟨_, _, _, h1, _, h2, _⟩ := h
    exact ⟨(maybeAddr_ok h1).2, (maybeAddr_ok h2).2⟩
  have ef := execute_eff h
  cases ef with
  | bidSaved _ _ _ hm => cases hm
  | bought _ _ _ _ _ hm => cases hm
  | setAsk ty coll tok price recipient reserveFor fee expires paid hv hpos hden hmin hmax hown htr happ hexp hpaid hlist hfee hres =>
    obtain ⟨e1, e2, _⟩ := isValid_ok hexp
    subst hlist
    rw [ustars_eq]
    refine ⟨hown, happ, onlyTradable_ok htr, e1, e2, hden, hpos, hmin, hmax, hres, hfee, hv, hval.1, hval.2, ?_, ?_, ?_, ?_,
      AMap.get?_insert_self _ _ _, fun k hk => ?_, rfl⟩
    · rcases mayPay_ok.mp hpaid with ⟨h1, h2⟩ | h1
      · rw [h1, h2]; rfl
      · rw [h1, nat_coin, nat_native]
    · rcases mayPay_ok.mp hpaid with ⟨h1, h2⟩ | h1 <;> rw [h1] <;> simp
    · rcases mayPay_ok.mp hpaid with ⟨h1, h2⟩ | h1 <;> rw [h1] <;> simp
    · rw [core_append, core_askHook, List.append_nil]
      by_cases hz : s.params.listingFee = 0
      · rw [if_pos hz, if_neg (by omega)]; rfl
      · rw [if_neg hz, if_pos (by omega)]; rfl
    · rw [AMap.get?_insert, if_neg (Ne.symm hk)]

example := C89_set_ask (Sample.run_eq (c := Sample.ctx 1000) (sender := Sample.alice) (funds := Sample.us 3) (s := Sample.s2)
  (m := .setAsk .fixedPrice Sample.coll 1 ⟨NATIVE, 101⟩ (some Sample.carol) (some Sample.bob) (some 500) (2000 * Sample.NSs))
  (by decide +kernel))

/-! ### C90 -/

/-- The owner of the token changes the price of an active, unexpired listing: nothing else in it changes, nor in the store. -/
theorem C90_price {c : Addr} {t : Nat} {price : Coin}
    (h : execute p ctx sender funds (.updateAskPrice c t price) s = .ok (s', msgs)) :
    ∃ a, s.asks.get? (c, t) = some a ∧ ctx.q.ownerOf c (tokStr t) = some sender ∧ a.isActive = true ∧ ctx.time < a.expiresAt ∧
      price.denom = ustars ∧ 0 < price.amount ∧ s.params.minPrice ≤ price.amount ∧ funds = [] ∧ core msgs = [] ∧
      s'.asks.get? (c, t) = some { a with price := price.amount } ∧
      (∀ k, k ≠ (c, t) → s'.asks.get? k = s.asks.get? k) ∧ s' = { s with asks := s'.asks } := by
  have ef := execute_eff h
  cases ef with
  | bidSaved _ _ _ hm => cases hm
  | bought _ _ _ _ _ hm => cases hm
  | updatePrice coll tok price ask hv hf hown hpos hden hmin ha hact hlive =>
    refine ⟨ask, ha, hown, hact, hlive, by rw [ustars_eq]; exact hden, hpos, hmin, hf, core_askHook _ _ _,
      AMap.get?_insert_self _ _ _, fun k hk => ?_, rfl⟩
    rw [AMap.get?_insert, if_neg (Ne.symm hk)]

/-- The owner of the token removes its listing. -/
theorem C90_remove {c : Addr} {t : Nat} (h : execute p ctx sender funds (.removeAsk c t) s = .ok (s', msgs)) :
    s.asks.get? (c, t) ≠ none ∧ ctx.q.ownerOf c (tokStr t) = some sender ∧ funds = [] ∧ core msgs = [] ∧
      s'.asks.get? (c, t) = none ∧ (∀ k, k ≠ (c, t) → s'.asks.get? k = s.asks.get? k) ∧ s' = { s with asks := s'.asks } := by
  have ef := execute_eff h
  cases ef with
  | bidSaved _ _ _ hm => cases hm
  | bought _ _ _ _ _ hm => cases hm
  | removeAsk coll tok ask hv hf hown ha =>
    refine ⟨by rw [ha]; simp, hown, hf, core_askHook _ _ _, AMap.get?_erase_self _ _, fun k hk => ?_, rfl⟩
    rw [AMap.get?_erase, if_neg (Ne.symm hk)]

/-- An operator switches a listing on or off, only to what the collection says about the marketplace's approval. -/
theorem C90_sync {c : Addr} {t : Nat} (h : execute p ctx sender funds (.syncAsk c t) s = .ok (s', msgs)) :
    ∃ a, s.asks.get? (c, t) = some a ∧ sender ∈ s.params.operators ∧ funds = [] ∧ core msgs = [] ∧
      a.isActive = !ctx.q.approval c (tokStr t) ∧
      s'.asks.get? (c, t) = some { a with isActive := ctx.q.approval c (tokStr t) } ∧
      (∀ k, k ≠ (c, t) → s'.asks.get? k = s.asks.get? k) ∧ s' = { s with asks := s'.asks } := by
  have ef := execute_eff h
  cases ef with
  | bidSaved _ _ _ hm => cases hm
  | bought _ _ _ _ _ hm => cases hm
  | syncAsk coll tok ask hv hf hop ha hdiff =>
    refine ⟨ask, ha, hop, hf, core_askHook _ _ _, ?_, AMap.get?_insert_self _ _ _, fun k hk => ?_, rfl⟩
    · cases h1 : ctx.q.approval c (tokStr t) <;> cases h2 : ask.isActive <;> simp_all
    · rw [AMap.get?_insert, if_neg (Ne.symm hk)]

/-- An operator removes a listing only if the token is gone, the marketplace is not approved for it, or it has expired. -/
theorem C90_stale {c : Addr} {t : Nat} (h : execute p ctx sender funds (.removeStaleAsk c t) s = .ok (s', msgs)) :
    ∃ a, s.asks.get? (c, t) = some a ∧ sender ∈ s.params.operators ∧ funds = [] ∧ core msgs = [] ∧
      (ctx.q.ownerOf c (tokStr t) = none ∨ ctx.q.approval c (tokStr t) = false ∨ a.expiresAt ≤ ctx.time) ∧
      s'.asks.get? (c, t) = none ∧ (∀ k, k ≠ (c, t) → s'.asks.get? k = s.asks.get? k) ∧ s' = { s with asks := s'.asks } := by
  have ef := execute_eff h
  cases ef with
  | bidSaved _ _ _ hm => cases hm
  | bought _ _ _ _ _ hm => cases hm
  | staleAsk coll tok ask hv hf hop ha hst =>
    refine ⟨ask, ha, hop, hf, core_askHook _ _ _, hst, AMap.get?_erase_self _ _, fun k hk => ?_, rfl⟩
    rw [AMap.get?_erase, if_neg (Ne.symm hk)]

/-- Any way a listing changes is one of these five, or a sale; the expiry, seller, sale type, recipients and finder's fee of a
listing never change while it stays. -/
theorem C90_frame (h : execute p ctx sender funds m s = .ok (s', msgs)) {c : Addr} {t : Nat}
    (hne : s'.asks.get? (c, t) ≠ s.asks.get? (c, t)) :
    (∃ ty price r v f e, m = .setAsk ty c t price r v f e) ∨ m = .removeAsk c t ∨ (∃ price, m = .updateAskPrice c t price) ∨
    m = .syncAsk c t ∨ m = .removeStaleAsk c t ∨ (handed msgs ≠ [] ∧ s'.asks.get? (c, t) = none) := by
  have ins : ∀ {k : AskKey} {v : Ask}, (s.asks.insert k v).get? (c, t) ≠ s.asks.get? (c, t) → k = (c, t) := by
    intro k v hk
    rw [AMap.get?_insert] at hk
    by_cases e : k = (c, t)
    · exact e
    · rw [if_neg e] at hk; exact absurd rfl hk
  have era : ∀ {k : AskKey}, (s.asks.erase k).get? (c, t) ≠ s.asks.get? (c, t) → k = (c, t) := by
    intro k hk
    rw [AMap.get?_erase] at hk
    by_cases e : k = (c, t)
    · exact e
    · rw [if_neg e] at hk; exact absurd rfl hk
  have sold : ∀ {a : Ask} {price : Nat} {buyer : Addr} {finder recipient : Option Addr} {ms pre : List Msg},
      Sold ctx s a price buyer finder recipient ms → handed (pre ++ ms) ≠ [] := by
    intro a price buyer finder recipient ms pre h
    cases h with
    | mk pay h => simp [handed_append, handed]
  have ef := execute_eff h
  cases ef with
  | setAsk => cases ins hne; exact Or.inl ⟨_, _, _, _, _, _, rfl⟩
  | removeAsk => cases era hne; exact Or.inr (Or.inl rfl)
  | updatePrice => cases ins hne; exact Or.inr (Or.inr (Or.inl ⟨_, rfl⟩))
  | bidSaved => exact absurd rfl hne
  | bought m b price ask sale hm hv hfinder hfee hfunds hpos hmin ha hlive hact hres hty hprice hown hsale =>
    have hk := era hne
    exact Or.inr (Or.inr (Or.inr (Or.inr (Or.inr ⟨sold hsale, by rw [← hk]; exact AMap.get?_erase_self _ _⟩))))
  | removeBid => exact absurd rfl hne
  | acceptBid coll tok bidder finder bid sale hv hf hown htr hb hlive hsale =>
    have hk := era hne
    exact Or.inr (Or.inr (Or.inr (Or.inr (Or.inr ⟨sold (pre := []) hsale, by rw [← hk]; exact AMap.get?_erase_self _ _⟩))))
  | rejectBid => exact absurd rfl hne
  | setCBid => exact absurd rfl hne
  | removeCBid => exact absurd rfl hne
  | acceptCBid coll tok bidder finder bid sale hv hf hown htr hb hlive hsale =>
    have hk := era hne
    exact Or.inr (Or.inr (Or.inr (Or.inr (Or.inr ⟨sold (pre := []) hsale, by rw [← hk]; exact AMap.get?_erase_self _ _⟩))))
  | syncAsk => cases ins hne; exact Or.inr (Or.inr (Or.inr (Or.inl rfl)))
  | staleAsk => cases era hne; exact Or.inr (Or.inr (Or.inr (Or.inr (Or.inl rfl))))
  | staleBid => exact absurd rfl hne
  | staleCBid => exact absurd rfl hne

/-- A context in which the marketplace is not approved. -/
def Sample.ctxNo (n : Nat) : Ctx := { Sample.ctx n with q := { Sample.q (some Sample.alice) with approval := fun _ _ => false } }

example := C90_price (Sample.run_eq (c := Sample.ctx 1001) (sender := Sample.alice) (funds := []) (s := Sample.s6)
  (m := .updateAskPrice Sample.coll 1 ⟨NATIVE, 80⟩) (by decide +kernel))
example := C90_remove (Sample.run_eq (c := Sample.ctx 1001) (sender := Sample.alice) (funds := []) (s := Sample.s6)
  (m := .removeAsk Sample.coll 1) (by decide +kernel))
example := C90_sync (Sample.run_eq (c := Sample.ctxNo 1001) (sender := Sample.oper) (funds := []) (s := Sample.s6)
  (m := .syncAsk Sample.coll 1) (by decide +kernel))
example := C90_stale (Sample.run_eq (c := Sample.ctx 2000) (sender := Sample.oper) (funds := []) (s := Sample.s6)
  (m := .removeStaleAsk Sample.coll 1) (by decide +kernel))
example := C90_frame (c := Sample.coll) (t := 1)
  (Sample.run_eq (c := Sample.ctx 1002) (sender := Sample.carol) (funds := Sample.us 101) (s := Sample.s6)
    (m := Sample.buyMsg) (by decide +kernel)) (by decide +kernel)

/-! ### C91 -/

/-- The bid a call describes: expiry, finder, finder's fee, whether a listing is required. -/
def Spec.bidOf : Exec → Option (Nat × Option Addr × Option Nat × Bool)
  | .setBid _ _ e _ f n => some (e, f, n, false)
  | .buyNow _ _ e f n => some (e, f, n, true)
  | .buyFor _ _ e f n _ => some (e, f, n, true)
  | _ => none

theorem bidArgs_bidOf {b : BidArgs} (hm : bidArgs m = some b) : bidOf m = some (b.expires, b.finder, b.fee, b.buyNow) := by
  cases m <;> simp only [bidArgs, Option.some.injEq, reduceCtorEq] at hm
  all_goals subst hm; rfl

/-- Any bid or purchase pays at least the minimum price and does not name the caller as finder. If a listing exists it is
active, unexpired and not reserved for somebody else; at a fixed price no more than the price is accepted and exactly the price
buys, while at an auction the bid must reach the price and never buys. Without a listing only SetBid is possible. If the
call does not buy, the bid is recorded as given, for the caller, with an expiry in the configured range; no other order changes
and nothing is paid but the refund of a replaced bid. -/
theorem C91_bid {c : Addr} {t e : Nat} {f : Option Addr} {n : Option Nat} {now : Bool} (hb : bidsOn c t m)
    (ho : bidOf m = some (e, f, n, now)) (h : execute p ctx sender funds m s = .ok (s', msgs)) :
    ∃ price, funds = [⟨ustars, price⟩] ∧ 0 < price ∧ s.params.minPrice ≤ price ∧ f ≠ some sender ∧
      (∀ x, n = some x → percent x ≤ s.params.maxFindersFee) ∧ (∀ k, k ≠ (c, t, sender) → s'.bids.get? k = s.bids.get? k) ∧
      (s.asks.get? (c, t) = none → now = false) ∧
      (∀ a, s.asks.get? (c, t) = some a → ctx.time < a.expiresAt ∧ a.isActive = true ∧ (∀ r, a.reserveFor = some r → r = sender) ∧
        (a.saleType = .fixedPrice → price ≤ a.price) ∧ (a.saleType = .auction → a.price ≤ price)) ∧
      (handed msgs ≠ [] ↔ ∃ a, s.asks.get? (c, t) = some a ∧ a.saleType = .fixedPrice ∧ a.price = price) ∧
      (handed msgs = [] → ctx.time + s.params.bidExpiry.min * 10^9 < e ∧ e ≤ ctx.time + s.params.bidExpiry.max * 10^9 ∧
        s'.bids.get? (c, t, sender) = some ⟨c, t, sender, price, n, e⟩ ∧
        s' = { s with bids := s'.bids } ∧
        core msgs = (match s.bids.get? (c, t, sender) with
          | some old => [.send sender [⟨ustars, old.price⟩]]
          | none => [])) := by
  obtain ⟨b, hb1, rfl, rfl⟩ := on_bidArgs hb
  rw [bidArgs_bidOf hb1] at ho
  cases ho
  have ef := execute_eff h
  cases ef with
  | bidSaved m b' price hm hv hfinder hfee hfunds hpos hmin hexp hask hno =>
    rw [hb1] at hm; cases hm
    have hh : handed (refund ((s.bids.get? (b.coll, b.tok, sender)).map Bid.price) sender ++
        bidHook s ⟨b.coll, b.tok, sender, price, b.fee, b.expires⟩ .create) = [] := by
      rw [handed_append, (refund_pay _ _).handed]; exact handed_hooks _ _
    refine ⟨price, by rw [ustars_eq]; exact hfunds, hpos, hmin, hfinder, hfee, (fun k hk => by
      rw [AMap.get?_insert, if_neg (Ne.symm hk), AMap.get?_erase, if_neg (Ne.symm hk)]), hno, ?_, ?_, ?_⟩
    · intro a ha
      obtain ⟨a1, a2, a3, a4, a5⟩ := hask a ha
      exact ⟨a1, a2, a3, fun x => Nat.le_of_lt (a4 x), a5⟩
    · constructor
      · intro hx; exact absurd hh hx
      · rintro ⟨a, ha, h1, h2⟩
        have := (hask a ha).2.2.2.1 h1
        omega
    · intro _
      obtain ⟨e1, e2, _⟩ := isValid_ok hexp
      refine ⟨e1, e2, AMap.get?_insert_self _ _ _, rfl, ?_⟩
      rw [core_append, (refund_pay _ _).core, core_bidHook, List.append_nil, ustars_eq]
      cases s.bids.get? (b.coll, b.tok, sender) <;> rfl
  | bought m b' price ask sale hm hv hfinder hfee hfunds hpos hmin ha hlive hact hres hty hprice hown hsale =>
    rw [hb1] at hm; cases hm
    have hh : handed (refund ((s.bids.get? (b.coll, b.tok, sender)).map Bid.price) sender ++ sale) ≠ [] := by
      cases hsale with
      | mk pay h => simp [handed_append, handed]
    refine ⟨price, by rw [ustars_eq]; exact hfunds, hpos, hmin, hfinder, hfee, (fun k hk => by
      rw [AMap.get?_erase, if_neg (Ne.symm hk)]), (fun hx => by rw [ha] at hx; cases hx), ?_, ?_, ?_⟩
    · intro a ha'
      rw [ha] at ha'; cases ha'
      exact ⟨hlive, hact, hres, fun _ => by omega, fun x => by rw [hty] at x; cases x⟩
    · exact ⟨fun _ => ⟨ask, ha, hty, hprice⟩, fun _ => hh⟩
    · intro hx; exact absurd hx hh
  | setAsk => cases hb1
  | removeAsk => cases hb1
  | updatePrice => cases hb1
  | removeBid => cases hb1
  | acceptBid => cases hb1
  | rejectBid => cases hb1
  | setCBid => cases hb1
  | removeCBid => cases hb1
  | acceptCBid => cases hb1
  | syncAsk => cases hb1
  | staleAsk => cases hb1
  | staleBid => cases hb1
  | staleCBid => cases hb1

/-- A collection bid is recorded as given, for the caller, if it pays the minimum price and expires in the configured range;
a replaced one is refunded. -/
theorem C91_cbid {c : Addr} {e : Nat} {n : Option Nat}
    (h : execute p ctx sender funds (.setCollectionBid c e n) s = .ok (s', msgs)) :
    ∃ price, funds = [⟨ustars, price⟩] ∧ 0 < price ∧ s.params.minPrice ≤ price ∧
      ctx.time + s.params.bidExpiry.min * 10^9 < e ∧ e ≤ ctx.time + s.params.bidExpiry.max * 10^9 ∧
      s'.cbids.get? (c, sender) = some ⟨c, sender, price, n, e⟩ ∧
      (∀ k, k ≠ (c, sender) → s'.cbids.get? k = s.cbids.get? k) ∧ s' = { s with cbids := s'.cbids } ∧
      (∀ x, n = some x → percent x ≤ s.params.maxFindersFee) ∧
      core msgs = (match s.cbids.get? (c, sender) with
        | some old => [.send old.bidder [⟨ustars, old.price⟩]]
        | none => []) := by
  have ef := execute_eff h
  cases ef with
  | bidSaved _ _ _ hm => cases hm
  | bought _ _ _ _ _ hm => cases hm
  | setCBid coll expires fee price hv hfunds hpos hmin hexp hfee =>
    obtain ⟨e1, e2, _⟩ := isValid_ok hexp
    refine ⟨price, by rw [ustars_eq]; exact hfunds, hpos, hmin, e1, e2, AMap.get?_insert_self _ _ _, fun k hk => ?_, rfl, hfee, ?_⟩
    · rw [AMap.get?_insert, if_neg (Ne.symm hk)]
    · rw [core_append, core_cbidHook, List.append_nil, ustars_eq]
      cases s.cbids.get? (c, sender) <;> rfl

example := C91_bid (m := Sample.bidMsg) (c := Sample.coll) (t := 1) ⟨rfl, rfl⟩ rfl
  (Sample.run_eq (c := Sample.ctx 1001) (sender := Sample.bob) (funds := Sample.us 70) (s := Sample.s5)
    (m := Sample.bidMsg) (by decide +kernel))
example := C91_bid (m := Sample.buyMsg) (c := Sample.coll) (t := 1) ⟨rfl, rfl⟩ rfl
  (Sample.run_eq (c := Sample.ctx 1002) (sender := Sample.carol) (funds := Sample.us 101) (s := Sample.s6)
    (m := Sample.buyMsg) (by decide +kernel))
example := C91_cbid (Sample.run_eq (c := Sample.ctx 1001) (sender := Sample.carol) (funds := Sample.us 55) (s := Sample.s6)
    (m := .setCollectionBid Sample.coll (4000 * Sample.NSs) (some 100)) (by decide +kernel))

/-! ### C92 -/

/-- Whenever a standing bid is not there any more after a call, unless it was taken in a sale or removed as stale, its price is
the first thing paid, to its bidder, and only a purchase pays anything else. -/
theorem C92_bid (hr : Reach p me s) (h : execute p ctx sender funds m s = .ok (s', msgs)) {k : BidKey} {b : Bid}
    (hb : s.bids.get? k = some b) (hne : s'.bids.get? k ≠ some b) :
    (∃ f, m = .acceptBid k.1 k.2.1 k.2.2 f ∧ handed msgs = [(k.1, tokStr k.2.1, k.2.2)]) ∨ m = .removeStaleBid k.1 k.2.1 k.2.2 ∨
    ∃ rest, core msgs = .send k.2.2 [⟨ustars, b.price⟩] :: rest ∧ (rest = [] ∨ handed msgs ≠ [] ∧ sender = k.2.2) := by
  have hg := (hr.wf.bids _ _ hb).key
  have era : ∀ {j : BidKey}, (s.bids.erase j).get? k ≠ some b → k = j := by
    intro j hk
    rw [AMap.get?_erase] at hk
    by_cases e : j = k
    · exact e.symm
    · rw [if_neg e] at hk; exact absurd hb hk
  have hbidder : b.bidder = k.2.2 := by rw [← hg]
  have ef := execute_eff h
  rw [ustars_eq]
  cases ef with
  | bidSaved m b' price hm hv hfinder hfee hfunds hpos hmin hexp hask hno =>
    have hk : k = (b'.coll, b'.tok, sender) := by
      by_cases e : k = (b'.coll, b'.tok, sender)
      · exact e
      · refine era (j := (b'.coll, b'.tok, sender)) ?_
        simp only [AMap.get?_insert, if_neg (Ne.symm e)] at hne
        exact hne
    rw [← hk, hb]
    refine Or.inr (Or.inr ⟨[], ?_, Or.inl rfl⟩)
    rw [core_append, (refund_pay _ _).core, core_bidHook, List.append_nil, hk]; rfl
  | bought m b' price ask sale hm hv hfinder hfee hfunds hpos hmin ha hlive hact hres hty hprice hown hsale =>
    have hk := era hne
    rw [← hk, hb]
    refine Or.inr (Or.inr ⟨core sale, ?_, Or.inr ⟨?_, by rw [hk]⟩⟩)
    · rw [core_append, (refund_pay _ _).core, hk]; rfl
    · cases hsale with
      | mk pay h => simp [handed_append, handed]
  | removeBid coll tok bid hv hf hb' =>
    have hk := era hne
    subst hk
    rw [hb] at hb'; cases hb'
    refine Or.inr (Or.inr ⟨[], ?_, Or.inl rfl⟩)
    rw [core_send, core_bidHook, hbidder]
  | acceptBid coll tok bidder finder bid sale hv hf hown htr hb' hlive hsale =>
    have hk := era hne
    subst hk
    refine Or.inl ⟨finder, rfl, ?_⟩
    cases hsale with
    | mk pay hp => simp [handed_append, handed, hp.pay.handed, tempAsk, saleHook, handed_hooks]
  | rejectBid coll tok bidder bid hv hf hown hb' =>
    have hk := era hne
    subst hk
    rw [hb] at hb'; cases hb'
    refine Or.inr (Or.inr ⟨[], ?_, Or.inl rfl⟩)
    rw [core_send, core_bidHook]
  | staleBid =>
    have hk := era hne
    subst hk
    exact Or.inr (Or.inl rfl)
  | setAsk => exact absurd hb hne
  | removeAsk => exact absurd hb hne
  | updatePrice => exact absurd hb hne
  | setCBid => exact absurd hb hne
  | removeCBid => exact absurd hb hne
  | acceptCBid => exact absurd hb hne
  | syncAsk => exact absurd hb hne
  | staleAsk => exact absurd hb hne
  | staleCBid => exact absurd hb hne

/-- The same for collection bids. -/
theorem C92_cbid (hr : Reach p me s) (h : execute p ctx sender funds m s = .ok (s', msgs)) {k : CBidKey} {b : CBid}
    (hb : s.cbids.get? k = some b) (hne : s'.cbids.get? k ≠ some b) :
    (∃ t f, m = .acceptCollectionBid k.1 t k.2 f ∧ handed msgs = [(k.1, tokStr t, k.2)]) ∨ m = .removeStaleCollectionBid k.1 k.2 ∨
    (core msgs = [.send k.2 [⟨ustars, b.price⟩]] ∧ sender = k.2) := by
  have hg := (hr.wf.cbids _ _ hb).key
  have hbidder : b.bidder = k.2 := by rw [← hg]
  have era : ∀ {j : CBidKey}, (s.cbids.erase j).get? k ≠ some b → k = j := by
    intro j hk
    rw [AMap.get?_erase] at hk
    by_cases e : j = k
    · exact e.symm
    · rw [if_neg e] at hk; exact absurd hb hk
  have ef := execute_eff h
  rw [ustars_eq]
  cases ef with
  | setCBid coll expires fee price hv hfunds hpos hmin hexp hfee =>
    have hk : k = (coll, sender) := by
      by_cases e : k = (coll, sender)
      · exact e
      · rw [AMap.get?_insert, if_neg (Ne.symm e)] at hne; exact absurd hb hne
    subst hk
    refine Or.inr (Or.inr ⟨?_, rfl⟩)
    rw [core_append, core_cbidHook, List.append_nil, hb]
    simp only [hbidder]; rfl
  | removeCBid coll bid hv hf hb' =>
    have hk := era hne
    subst hk
    rw [hb] at hb'; cases hb'
    refine Or.inr (Or.inr ⟨?_, rfl⟩)
    rw [core_send, core_cbidHook, hbidder]
  | acceptCBid coll tok bidder finder bid sale hv hf hown htr hb' hlive hsale =>
    have hk := era hne
    subst hk
    refine Or.inl ⟨tok, finder, rfl, ?_⟩
    cases hsale with
    | mk pay hp => simp [handed_append, handed, hp.pay.handed, tempAsk, saleHook, handed_hooks]
  | staleCBid =>
    have hk := era hne
    subst hk
    exact Or.inr (Or.inl rfl)
  | setAsk => exact absurd hb hne
  | removeAsk => exact absurd hb hne
  | updatePrice => exact absurd hb hne
  | bidSaved => exact absurd hb hne
  | bought => exact absurd hb hne
  | removeBid => exact absurd hb hne
  | acceptBid => exact absurd hb hne
  | rejectBid => exact absurd hb hne
  | syncAsk => exact absurd hb hne
  | staleAsk => exact absurd hb hne
  | staleBid => exact absurd hb hne

example := C92_bid Sample.r6 (Sample.run_eq (c := Sample.ctx 1002) (sender := Sample.alice) (funds := []) (s := Sample.s6)
    (m := .rejectBid Sample.coll 1 Sample.bob) (by decide +kernel)) (k := (Sample.coll, 1, Sample.bob))
    (b := ⟨Sample.coll, 1, Sample.bob, 70, some 300, 3000 * Sample.NSs⟩) (by decide +kernel) (by decide +kernel)
example := C92_cbid Sample.r6 (Sample.run_eq (c := Sample.ctx 1002) (sender := Sample.carol) (funds := []) (s := Sample.s6)
    (m := .removeCollectionBid Sample.coll) (by decide +kernel)) (k := (Sample.coll, Sample.carol))
    (b := ⟨Sample.coll, Sample.carol, 50, none, 3000 * Sample.NSs⟩) (by decide +kernel) (by decide +kernel)

/-! ### C93 -/

/-- Every call balances to the unit: open bids after plus payments (plus at most one unit of royalty rounding in a sale) are open
bids before plus the attached funds. Funds and payments are in the native denom only. -/
theorem C93_accounting (h : execute p ctx sender funds m s = .ok (s', msgs)) :
    ∃ dust, dust ≤ 1 ∧ (handed msgs = [] → dust = 0) ∧
      openBids s' + paidOut ustars msgs + dust = openBids s + amountOf ustars funds ∧
      ∀ d, d ≠ ustars → paidOut d msgs = 0 ∧ amountOf d funds = 0 := by
  obtain ⟨dust, h1, h2, h3⟩ := conservation (execute_eff h)
  refine ⟨dust, h1, h2, ?_, ?_⟩
  · have := h3 ustars
    rw [ustars_eq] at this ⊢
    simp only [escrow, nat_native] at this
    omega
  · intro d hd
    rw [ustars_eq] at hd
    have := h3 d
    simp only [escrow, nat, if_neg hd] at this
    have hf : amountOf d funds = 0 := by
      have key : ∀ n, amountOf d [⟨NATIVE, n⟩] = 0 := fun n => by rw [nat_coin, nat, if_neg hd]
      have ef := execute_eff h
      cases ef with
      | setAsk ty coll tok price recipient reserveFor fee expires paid hv hpos hden hmin hmax hown htr happ hexp hpaid =>
        rcases mayPay_ok.mp hpaid with ⟨h1, h2⟩ | h1
        · rw [h1]; rfl
        · rw [h1]; exact key _
      | bidSaved m b price hm hv hfinder hfee hfunds => rw [hfunds]; exact key _
      | bought m b price ask sale hm hv hfinder hfee hfunds => rw [hfunds]; exact key _
      | setCBid coll expires fee price hv hfunds => rw [hfunds]; exact key _
      | removeAsk _ _ _ _ hf => rw [hf]; rfl
      | updatePrice _ _ _ _ _ hf => rw [hf]; rfl
      | removeBid _ _ _ _ hf => rw [hf]; rfl
      | acceptBid _ _ _ _ _ _ _ hf => rw [hf]; rfl
      | rejectBid _ _ _ _ _ hf => rw [hf]; rfl
      | removeCBid _ _ _ hf => rw [hf]; rfl
      | acceptCBid _ _ _ _ _ _ _ hf => rw [hf]; rfl
      | syncAsk _ _ _ _ hf => rw [hf]; rfl
      | staleAsk _ _ _ _ hf => rw [hf]; rfl
      | staleBid _ _ _ _ _ _ hf => rw [hf]; rfl
      | staleCBid _ _ _ _ _ hf => rw [hf]; rfl
    omega

example := C93_accounting (Sample.run_eq (c := Sample.ctx 1002) (sender := Sample.carol) (funds := Sample.us 101) (s := Sample.s6)
    (m := Sample.buyMsg) (by decide +kernel))

/-! ### C94 -/

/-- One notification for each registered contract. -/
def Spec.told (hs : List Addr) (i : HookInfo) : List Msg := hs.map (fun h => .hook h i)

/-- News of a listing. -/
def Spec.askNews (hs : List Addr) (x : HookAction) : Option Ask → List Msg
  | some a => told hs ⟨.ask, some x, a.collection, some a.tokenId, a.price, a.seller, none⟩
  | none => []

/-- News of a bid. -/
def Spec.bidNews (hs : List Addr) (x : HookAction) : Option Bid → List Msg
  | some b => told hs ⟨.bid, some x, b.collection, some b.tokenId, b.price, b.bidder, none⟩
  | none => []

/-- News of a sale on the given terms. -/
def Spec.saleNews (hs : List Addr) : Option Terms → List Msg
  | some T => told hs ⟨.sale, none, T.coll, some T.tok, T.price, T.seller, some T.buyer⟩
  | none => []

/-- The notifications due when the call leads from `s` to `s'`: a new, changed or removed listing, a new or removed bid, a sale. -/
def Spec.news (s s' : State) (sender : Addr) (m : Exec) : List Msg :=
  match m with
  | .setAsk _ c t _ _ _ _ _ => askNews s.askHooks .create (s'.asks.get? (c, t))
  | .updateAskPrice c t _ | .syncAsk c t => askNews s.askHooks .update (s'.asks.get? (c, t))
  | .removeAsk c t | .removeStaleAsk c t => askNews s.askHooks .delete (s.asks.get? (c, t))
  | .setBid c t _ _ _ _ | .buyNow c t _ _ _ | .buyFor c t _ _ _ _ =>
    match s'.bids.get? (c, t, sender) with
    | some b => bidNews s.bidHooks .create (some b)
    | none => saleNews s.saleHooks (terms s sender m)
  | .removeBid c t => bidNews s.bidHooks .delete (s.bids.get? (c, t, sender))
  | .rejectBid c t b | .removeStaleBid c t b => bidNews s.bidHooks .delete (s.bids.get? (c, t, b))
  | .acceptBid _ _ _ _ | .acceptCollectionBid _ _ _ _ => saleNews s.saleHooks (terms s sender m)
  | .setCollectionBid _ _ _ | .removeCollectionBid _ | .removeStaleCollectionBid _ _ => []

theorem news_bid {b : BidArgs} (hm : bidArgs m = some b) : news s s' sender m =
    (match s'.bids.get? (b.coll, b.tok, sender) with
    | some b => bidNews s.bidHooks .create (some b)
    | none => saleNews s.saleHooks (terms s sender m)) := by
  cases m <;> simp only [bidArgs, Option.some.injEq, reduceCtorEq] at hm
  all_goals subst hm; rfl

theorem news_of {a b c : List Msg} (h1 : core a = a) (h2 : AllHooks b) (h3 : b = c) : a ++ b = core (a ++ b) ++ c := by
  rw [core_append, h1, h2.core, List.append_nil, h3]

/-- The notifications of a call are exactly these, one for each contract registered for the kind, with the collection, token,
price and party of the order (for a sale: its price, seller and buyer). In particular no contract is ever told about a
collection bid, nor that a sale removed a listing or bid, or a new bid an old one. -/
theorem C94_news (hr : Reach p me s) (h : execute p ctx sender funds m s = .ok (s', msgs)) :
    msgs = core msgs ++ news s s' sender m := by
  have hw := hr.wf
  have ef := execute_eff h
  have hsale : handed msgs ≠ [] → news s s' sender m = saleNews s.saleHooks (terms s sender m) →
      msgs = core msgs ++ news s s' sender m := by
    intro hh hn
    obtain ⟨T, ⟨sh⟩⟩ := sale_shape hw ef hh
    rw [hn, sh.terms]
    have h2 := sh.msgs
    have h3 := sh.core
    rw [← List.append_assoc] at h2
    rw [h3]
    exact h2.trans (congrArg _ sh.hookInfo)
  have sold : ∀ {a : Ask} {price : Nat} {buyer : Addr} {finder recipient : Option Addr} {ms pre : List Msg},
      Sold ctx s a price buyer finder recipient ms → handed (pre ++ ms) ≠ [] := by
    intro a price buyer finder recipient ms pre h
    cases h with
    | mk pay h => simp [handed_append, handed]
  cases ef with
  | setAsk =>
    refine news_of ?_ (allHooks_map _ _) ?_
    · split <;> rfl
    · simp only [news, AMap.get?_insert_self]; rfl
  | removeAsk coll tok ask hv hf hown ha =>
    refine news_of (a := []) rfl (allHooks_map _ _) ?_
    simp only [news, ha]; rfl
  | updatePrice =>
    refine news_of (a := []) rfl (allHooks_map _ _) ?_
    simp only [news, AMap.get?_insert_self]; rfl
  | bidSaved m b price hm =>
    refine news_of (refund_pay _ _).core (allHooks_map _ _) ?_
    rw [news_bid hm]
    simp only [AMap.get?_insert_self]; rfl
  | bought m b price ask sale hm hv hfinder hfee hfunds hpos hmin ha hlive hact hres hty hprice hown hsold =>
    refine hsale (sold hsold) ?_
    rw [news_bid hm]
    simp only [AMap.get?_erase_self]
  | removeBid coll tok bid hv hf hb =>
    refine news_of (a := [_]) rfl (allHooks_map _ _) ?_
    simp only [news, hb]; rfl
  | acceptBid coll tok bidder finder bid sale hv hf hown htr hb hlive hsold => exact hsale (sold (pre := []) hsold) rfl
  | rejectBid coll tok bidder bid hv hf hown hb =>
    refine news_of (a := [_]) rfl (allHooks_map _ _) ?_
    simp only [news, hb]; rfl
  | setCBid =>
    refine news_of ?_ (allHooks_map _ _) ?_
    · split <;> rfl
    · simp only [news, cbidHook, hw.cbidHooks]; rfl
  | removeCBid =>
    refine news_of (a := [_]) rfl (allHooks_map _ _) ?_
    simp only [news, hw.cbidHooks]; rfl
  | acceptCBid coll tok bidder finder bid sale hv hf hown htr hb hlive hsold => exact hsale (sold (pre := []) hsold) rfl
  | syncAsk =>
    refine news_of (a := []) rfl (allHooks_map _ _) ?_
    simp only [news, AMap.get?_insert_self]; rfl
  | staleAsk coll tok ask hv hf hop ha =>
    refine news_of (a := []) rfl (allHooks_map _ _) ?_
    simp only [news, ha]; rfl
  | staleBid coll tok bidder bid n hv hf hop hb =>
    refine news_of (a := [_, _]) rfl (allHooks_map _ _) ?_
    simp only [news, hb]; rfl
  | staleCBid =>
    refine news_of (a := [_, _]) rfl (allHooks_map _ _) ?_
    simp only [news, hw.cbidHooks]; rfl

example := C94_news Sample.r6 (Sample.run_eq (c := Sample.ctx 1002) (sender := Sample.carol) (funds := Sample.us 101)
  (s := Sample.s6) (m := Sample.buyMsg) (by decide +kernel))
example : (Sample.run (Sample.ctx 1001) Sample.bob (Sample.us 70) Sample.bidMsg Sample.s5).2 =
    [.send Sample.bob (Sample.us 60), .hook Sample.hk ⟨.bid, some .create, Sample.coll, some 1, 70, Sample.bob, none⟩] := by
  decide +kernel

/-! ### C95 -/

/-- The call asks to buy a token now, for the given recipient. -/
def Spec.buys (sender : Addr) : Exec → Option Addr
  | .buyNow _ _ _ _ _ => some sender
  | .buyFor _ _ _ _ _ r => some r
  | _ => none

/-- Full statement of C95: a successful BuyNow or BuyForToken hands over the token. -/
def C95_statement : Prop :=
  ∀ (p : Params) (me : Addr) (s s' : State) (ctx : Ctx) (sender r : Addr) (funds : List Coin) (m : Exec) (msgs : List Msg)
    (c : Addr) (t : Nat), Reach p me s → bidsOn c t m → buys sender m = some r →
    execute p ctx sender funds m s = .ok (s', msgs) → handed msgs = [(c, tokStr t, r)]

/-- carol sends 100 for a listing at 101: the call succeeds and the coins are locked in a bid -/
theorem C95_violated : ¬ C95_statement := by
  intro h
  have h1 : Sample.ok (Sample.ctx 1002) Sample.carol (Sample.us 100) Sample.buyMsg Sample.s6 = true := by decide +kernel
  have := h _ _ _ _ _ _ Sample.carol _ Sample.buyMsg _ Sample.coll 1 Sample.r6 ⟨rfl, rfl⟩ rfl (Sample.run_eq h1)
  exact absurd this (by decide +kernel)

/-- It does when exactly the price of a fixed-price listing is attached. Missing: otherwise (less than the price, or an
auction) the call succeeds too, hands over nothing, and the coins stay in a bid of the caller. -/
theorem C95_partial (hr : Reach p me s) {c : Addr} {t : Nat} {r : Addr} (hb : bidsOn c t m) (hbuy : buys sender m = some r)
    (h : execute p ctx sender funds m s = .ok (s', msgs)) :
    ∃ a n, s.asks.get? (c, t) = some a ∧ funds = [⟨ustars, n⟩] ∧
      (a.saleType = .fixedPrice → a.price = n → handed msgs = [(c, tokStr t, r)]) ∧
      (a.saleType = .auction ∨ n ≠ a.price → handed msgs = [] ∧
        ∃ b, s'.bids.get? (c, t, sender) = some b ∧ b.bidder = sender ∧ b.price = n) := by
  have hw := hr.wf
  obtain ⟨b, hb1, rfl, rfl⟩ := on_bidArgs hb
  have hr : b.recipient.getD sender = r ∧ b.buyNow = true := by
    cases m <;> simp only [bidArgs, Option.some.injEq, reduceCtorEq, buys] at hb1 hbuy
    all_goals subst hb1 hbuy; exact ⟨rfl, rfl⟩
  have ef := execute_eff h
  have hsale : handed msgs ≠ [] → handed msgs = [(b.coll, tokStr b.tok, r)] := by
    intro hh
    obtain ⟨T, ⟨sh⟩⟩ := sale_shape hw ef hh
    have ht := sh.terms
    rw [bidArgs_terms hb1, listed] at ht
    rw [sh.handed]
    cases ha : s.asks.get? (b.coll, b.tok) with
    | none => rw [ha] at ht; cases ht
    | some a =>
      rw [ha] at ht
      cases ht
      simp only [hr.1]
  cases ef with
  | bidSaved m b' price hm hv hfinder hfee hfunds hpos hmin hexp hask hno =>
    rw [hb1] at hm; cases hm
    have hh : handed (refund ((s.bids.get? (b.coll, b.tok, sender)).map Bid.price) sender ++
        bidHook s ⟨b.coll, b.tok, sender, price, b.fee, b.expires⟩ .create) = [] := by
      rw [handed_append, (refund_pay _ _).handed]; exact handed_hooks _ _
    cases ha : s.asks.get? (b.coll, b.tok) with
    | none => rw [hr.2] at hno; exact absurd (hno ha) (by simp)
    | some a =>
      refine ⟨a, price, rfl, by rw [ustars_eq]; exact hfunds, ?_, ?_⟩
      · intro h1 h2
        have := (hask a ha).2.2.2.1 h1
        omega
      · intro _
        exact ⟨hh, _, AMap.get?_insert_self _ _ _, rfl, rfl⟩
  | bought m b' price ask sale hm hv hfinder hfee hfunds hpos hmin ha hlive hact hres hty hprice hown hsold =>
    rw [hb1] at hm; cases hm
    have hh : handed (refund ((s.bids.get? (b.coll, b.tok, sender)).map Bid.price) sender ++ sale) ≠ [] := by
      cases hsold with
      | mk pay h => simp [handed_append, handed]
    refine ⟨ask, price, ha, by rw [ustars_eq]; exact hfunds, fun _ _ => hsale hh, ?_⟩
    rintro (h1 | h1)
    · rw [hty] at h1; cases h1
    · exact absurd hprice.symm h1
  | setAsk => cases hb1
  | removeAsk => cases hb1
  | updatePrice => cases hb1
  | removeBid => cases hb1
  | acceptBid => cases hb1
  | rejectBid => cases hb1
  | setCBid => cases hb1
  | removeCBid => cases hb1
  | acceptCBid => cases hb1
  | syncAsk => cases hb1
  | staleAsk => cases hb1
  | staleBid => cases hb1
  | staleCBid => cases hb1

example := C95_partial (m := Sample.buyMsg) Sample.r6 (c := Sample.coll) (t := 1) ⟨rfl, rfl⟩ rfl
  (Sample.run_eq (c := Sample.ctx 1002) (sender := Sample.carol) (funds := Sample.us 101) (s := Sample.s6) (by decide +kernel))

end Verif.V1

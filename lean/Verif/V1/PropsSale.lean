/-
Marketplace v1, properties about sales and listings: C45, C46, C49, C50, C51, C52, C56.
-/
import Verif.V1.Sale
import Verif.V1.Sample

namespace Verif.V1
open Verif Spec

variable {p : Params} {me : Addr} {honest : Addr → Prop}
variable {ctx : Ctx} {sender : Addr} {funds : List Coin} {m : Exec} {s s' : State} {msgs : List Msg}

/-! ### C49 -/

/-- A call hands over a token only as a sale on definite terms: the seller is the current owner; either the owner is the
caller and takes a standing, unexpired bid at its price, or the caller pays exactly the price of an active, unexpired
fixed-price listing made by the current owner. Exactly one token is handed over, and its listing is gone. -/
theorem C49_consent (hr : Reach p me s) (h : execute p ctx sender funds m s = .ok (s', msgs)) (hh : handed msgs ≠ []) :
    ∃ T, terms s sender m = some T ∧ handed msgs = [(T.coll, tokStr T.tok, T.recipient)] ∧
      ctx.q.ownerOf T.coll (tokStr T.tok) = some T.seller ∧ s'.asks.get? (T.coll, T.tok) = none ∧
      ((T.seller = sender ∧ (∃ f, m = .acceptBid T.coll T.tok T.buyer f) ∧
          (∃ b, s.bids.get? (T.coll, T.tok, T.buyer) = some b ∧ b.price = T.price ∧ ctx.time < b.expiresAt) ∧
          s'.bids.get? (T.coll, T.tok, T.buyer) = none) ∨
       (T.seller = sender ∧ (∃ f, m = .acceptCollectionBid T.coll T.tok T.buyer f) ∧
          (∃ b, s.cbids.get? (T.coll, T.buyer) = some b ∧ b.price = T.price ∧ ctx.time < b.expiresAt) ∧
          s'.cbids.get? (T.coll, T.buyer) = none) ∨
       (T.buyer = sender ∧ bidsOn T.coll T.tok m ∧ funds = [⟨ustars, T.price⟩] ∧
          ∃ a, s.asks.get? (T.coll, T.tok) = some a ∧ a.saleType = .fixedPrice ∧ a.isActive = true ∧
            ctx.time < a.expiresAt ∧ a.price = T.price ∧ a.seller = T.seller)) := by
  have hw := hr.wf
  have e := execute_eff h
  obtain ⟨T, ⟨sh⟩⟩ := sale_shape hw e hh
  refine ⟨T, sh.terms, sh.handed, ?_⟩
  have ht := sh.terms
  cases e with
  | bought m b price ask sale hm hv hfinder hfee hfunds hpos hmin ha hlive hact hres hty hprice hown hsale =>
    have hk := (hw.asks _ _ ha).key
    simp only [Prod.mk.injEq] at hk
    rw [bidArgs_terms hm, listed, ha] at ht
    simp only [Option.map_some, Option.some.injEq] at ht
    subst ht; subst hprice
    refine ⟨by rw [← hown, hk.1, hk.2], AMap.get?_erase_self _ _, Or.inr (Or.inr ⟨rfl, bidArgs_on hm, ?_, ask, ha, hty, hact, hlive, rfl, rfl⟩)⟩
    rw [ustars_eq]; exact hfunds
  | acceptBid coll tok bidder finder bid sale hv hf hown htr hb hlive hsale =>
    simp only [terms, hb, Option.map_some, Option.some.injEq] at ht
    subst ht
    exact ⟨hown, AMap.get?_erase_self _ _, Or.inl ⟨rfl, ⟨_, rfl⟩, ⟨bid, hb, rfl, hlive⟩, AMap.get?_erase_self _ _⟩⟩
  | acceptCBid coll tok bidder finder bid sale hv hf hown htr hb hlive hsale =>
    simp only [terms, hb, Option.map_some, Option.some.injEq] at ht
    subst ht
    exact ⟨hown, AMap.get?_erase_self _ _, Or.inr (Or.inl ⟨rfl, ⟨_, rfl⟩, ⟨bid, hb, rfl, hlive⟩, AMap.get?_erase_self _ _⟩)⟩
  | bidSaved m b price hm hv hfinder hfee hfunds hpos hmin hexp hask hno =>
    exact absurd (by rw [handed_append, (refund_pay _ _).handed]; exact handed_hooks _ _) hh
  | setAsk => simp [terms] at ht
  | removeAsk => simp [terms] at ht
  | updatePrice => simp [terms] at ht
  | removeBid => simp [terms] at ht
  | rejectBid => simp [terms] at ht
  | setCBid => simp [terms] at ht
  | removeCBid => simp [terms] at ht
  | syncAsk => simp [terms] at ht
  | staleAsk => simp [terms] at ht
  | staleBid => simp [terms] at ht
  | staleCBid => simp [terms] at ht

/-- Token ids are not confused by their decimal encoding. -/
theorem C49_token {a b : Nat} (h : tokStr a = tokStr b) : a = b := tokStr_inj h

/-- Value of a string of decimal digits. -/
def Spec.value (b : Bytes) : Nat := b.foldl (fun n d => 10 * n + (d.toNat - 48)) 0

/-- The collection is asked about, and told to hand over, the token whose decimal notation without leading zeros is the token
id of the order. -/
theorem C49_decimal (n : Nat) :
    value (tokStr n) = n ∧ (∀ d ∈ tokStr n, 48 ≤ d.toNat ∧ d.toNat ≤ 57) ∧ ((tokStr n).head? = some 48 → n = 0) := by
  have key : ∀ f n, n < f → value (decimal f n) = n ∧ (∀ d ∈ decimal f n, 48 ≤ d.toNat ∧ d.toNat ≤ 57) ∧
      ((decimal f n).head? = some 48 → n = 0) ∧ decimal f n ≠ [] := by
    intro f
    induction f with
    | zero => intro n h; omega
    | succ f ih =>
      intro n h
      have hb : ∀ m, m < 10 → (UInt8.ofNat (48 + m)).toNat = 48 + m := by
        intro m hm; rw [UInt8.toNat_ofNat']; omega
      unfold decimal
      split
      case isTrue hn =>
        refine ⟨?_, ?_, ?_, by simp⟩
        · simp only [value, List.foldl_cons, List.foldl_nil, hb n hn]; omega
        · intro d hd; rw [List.mem_singleton] at hd; subst hd; rw [hb n hn]; omega
        · intro hd
          simp only [List.head?_cons, Option.some.injEq] at hd
          have := congrArg UInt8.toNat hd
          rw [hb n hn] at this
          simp at this
          exact this
      case isFalse hn =>
        obtain ⟨i1, i2, i3, i4⟩ := ih (n / 10) (by omega)
        have hm := hb (n % 10) (by omega)
        refine ⟨?_, ?_, ?_, by simp⟩
        · unfold value at i1 ⊢
          rw [List.foldl_append, i1]
          simp only [List.foldl_cons, List.foldl_nil, hm]
          omega
        · intro d hd
          rcases List.mem_append.mp hd with hd | hd
          · exact i2 d hd
          · rw [List.mem_singleton] at hd; subst hd; rw [hm]; omega
        · intro hd
          have := i3 (by
            cases hl : decimal f (n / 10) with
            | nil => exact absurd hl i4
            | cons x xs => rw [hl] at hd; exact hd)
          omega
  exact ⟨(key _ _ (Nat.lt_succ_self n)).1, (key _ _ (Nat.lt_succ_self n)).2.1, (key _ _ (Nat.lt_succ_self n)).2.2.1⟩

example : tokStr 1207 = "1207".toUTF8.toList := by decide +kernel

/-- The owner's part in a sale (listing, acceptance) is only possible once the collection's start of trading has come. -/
theorem C49_started {c : Addr} {t : Nat}
    (hm : (∃ ty x r v f e, m = .setAsk ty c t x r v f e) ∨ (∃ b f, m = .acceptBid c t b f) ∨ (∃ b f, m = .acceptCollectionBid c t b f))
    (h : execute p ctx sender funds m s = .ok (s', msgs)) :
    ∀ i st, ctx.q.collInfo c = some i → i.start = some st → st ≤ ctx.time := by
  have e := execute_eff h
  rcases hm with ⟨_, _, _, _, _, _, rfl⟩ | ⟨_, _, rfl⟩ | ⟨_, _, rfl⟩
  all_goals
    cases e with
    | bidSaved _ _ _ hm => cases hm
    | bought _ _ _ _ _ hm => cases hm
    | _ => exact onlyTradable_ok (by assumption)

example := C49_consent Sample.r6 (Sample.run_eq (c := Sample.ctx 1002) (sender := Sample.carol) (funds := Sample.us 101) (m := Sample.buyMsg)
  (by decide +kernel)) (by decide +kernel)
example : handed (Sample.run (Sample.ctx 1002) Sample.carol (Sample.us 101) Sample.buyMsg Sample.s6).2 =
    [(Sample.coll, [49], Sample.carol)] := by decide +kernel
example := C49_consent Sample.r6 (Sample.run_eq (c := Sample.ctx 1002) (sender := Sample.alice) (funds := [])
  (m := .acceptBid Sample.coll 1 Sample.bob none) (by decide +kernel)) (by decide +kernel)
example := C49_consent Sample.r6 (Sample.run_eq (c := Sample.ctx 1002) (sender := Sample.alice) (funds := [])
  (m := .acceptCollectionBid Sample.coll 1 Sample.carol none) (by decide +kernel)) (by decide +kernel)
example := C49_started (.inr (.inl ⟨_, _, rfl⟩)) (Sample.run_eq (c := Sample.ctx 1002) (sender := Sample.alice) (funds := []) (s := Sample.s6)
  (m := .acceptBid Sample.coll 1 Sample.bob none) (by decide +kernel))

/-! ### C45 -/

/-- Finder's fee agreed in the terms. -/
def Spec.Terms.found (T : Terms) : Nat :=
  match T.finder, T.fee with
  | some _, some f => share f T.price
  | _, _ => 0

/-- The messages of a sale, apart from hook notifications: refund of the buyer's replaced bid, network fee, finder's fee,
royalty, proceeds, token. The four payments add up to the price, or to the price minus one unit; exactly to the price if the
collection asks for no royalty. -/
theorem C45_parts (hr : Reach p me s) (h : execute p ctx sender funds m s = .ok (s', msgs)) (hh : handed msgs ≠ []) :
    ∃ T t burnt roy sell dust, terms s sender m = some T ∧ s.params.tradingFee = percent t ∧
      burnt = share t T.price ∧ roy = T.price * royaltyOf ctx.q T.coll / 10^18 ∧
      burnt + T.found + roy + sell + dust = T.price ∧ dust ≤ 1 ∧ (royaltyOf ctx.q T.coll = 0 → dust = 0) ∧
      ∃ fin art : List Msg,
        core msgs = (match oldBid s sender m with
            | some b => [.send sender [⟨ustars, b.price⟩]]
            | none => []) ++
          [.fairBurn [⟨ustars, burnt⟩]] ++ fin ++ art ++ [.send T.payee [⟨ustars, sell⟩]] ++
          [.nft T.coll (tokStr T.tok) T.recipient] ∧
        (fin = [] ∧ T.found = 0 ∨ ∃ f, T.finder = some f ∧ fin = [.send f [⟨ustars, T.found⟩]] ∧ 0 < T.found) ∧
        (art = [] ∧ royaltyOf ctx.q T.coll = 0 ∨
          ∃ i r, ctx.q.collInfo T.coll = some i ∧ i.royalty = some r ∧ art = [.send r.recipient [⟨ustars, roy⟩]]) := by
  have hw := hr.wf
  obtain ⟨T, ⟨sh⟩⟩ := sale_shape hw (execute_eff h) hh
  obtain ⟨t, ht, _⟩ := hw.params.trading
  have hnet : netFee s T.price = share t T.price := by
    unfold netFee; rw [ht]; exact percent_share _ _
  have hfin : finFee T.price T.finder T.fee = T.found := finFee_share _ _ _
  have hold : refund ((oldBid s sender m).map Bid.price) sender =
      (match oldBid s sender m with
       | some b => [.send sender [⟨NATIVE, b.price⟩]]
       | none => []) := by
    cases oldBid s sender m <;> rfl
  have hfm : finderMsg T.finder T.found = [] ∧ T.found = 0 ∨
      ∃ f, T.finder = some f ∧ finderMsg T.finder T.found = [.send f [⟨NATIVE, T.found⟩]] ∧ 0 < T.found := by
    cases hf : T.finder with
    | none => left; exact ⟨rfl, by unfold Terms.found; rw [hf]⟩
    | some f =>
      by_cases hz : 0 < T.found
      · right; exact ⟨f, rfl, by simp only [finderMsg]; rw [if_pos hz], hz⟩
      · left; refine ⟨by simp only [finderMsg]; rw [if_neg hz], by omega⟩
  rw [ustars_eq, sh.core, hold]
  have hp := sh.paid
  revert hp
  generalize sh.pay = pay
  intro hp
  cases hp with
  | royalty info roy hinfo hroy hpos hone hfit htot =>
    have hroy' : royaltyOf ctx.q T.coll = roy.share := by simp [royaltyOf, hinfo, hroy]
    have hs := split_share T.price roy.share ONE ONE_pos hone
    rw [hnet, hfin] at *
    refine ⟨T, t, _, _, T.price * (ONE - roy.share) / ONE - share t T.price - T.found,
      T.price - (T.price * roy.share / ONE + T.price * (ONE - roy.share) / ONE), sh.terms, ht, rfl, rfl, ?_, by omega, ?_, _,
      [.send roy.recipient [⟨NATIVE, T.price * roy.share / ONE⟩]], ?_, hfm, ?_⟩
    · rw [hroy']
      show _ + _ + T.price * roy.share / ONE + _ + _ = _
      omega
    · rw [hroy']; omega
    · simp
    · right; exact ⟨info, roy, hinfo, hroy, by rw [hroy']; rfl⟩
  | plain info hinfo hroy htot =>
    have hroy' : royaltyOf ctx.q T.coll = 0 := by
      unfold royaltyOf
      rw [hinfo]
      cases hi : info.royalty with
      | none => simp [hi]
      | some r => simp [hi, hroy r hi]
    rw [hnet, hfin] at *
    refine ⟨T, t, _, _, T.price - share t T.price - T.found, 0, sh.terms, ht, rfl, rfl, ?_, by omega, fun _ => rfl, _, [], ?_, hfm, ?_⟩
    · rw [hroy', Nat.mul_zero, Nat.zero_div]; omega
    · simp
    · left; exact ⟨rfl, hroy'⟩

example := C45_parts Sample.r6 (Sample.run_eq (c := Sample.ctx 1002) (sender := Sample.carol) (funds := Sample.us 101) (m := Sample.buyMsg)
  (by decide +kernel)) (by decide +kernel)
/-- bob buys; the earlier bid of 70 is refunded first -/
example : core (Sample.run (Sample.ctx 1002) Sample.bob (Sample.us 101) Sample.buyMsg Sample.s6).2 =
    [.send Sample.bob (Sample.us 70), .fairBurn (Sample.us 2), .send Sample.oper (Sample.us 5), .send Sample.artist (Sample.us 5),
     .send Sample.alice (Sample.us 88), .nft Sample.coll [49] Sample.bob] := by decide +kernel

/-- In total, never more than the price is paid for a token, and at most one unit less. -/
theorem C45_total (hr : Reach p me s) (h : execute p ctx sender funds m s = .ok (s', msgs)) (hh : handed msgs ≠ []) :
    ∃ T dust, terms s sender m = some T ∧ dust ≤ 1 ∧ (royaltyOf ctx.q T.coll = 0 → dust = 0) ∧
      paidOut ustars msgs + dust = T.price + ((oldBid s sender m).map Bid.price).getD 0 := by
  have hw := hr.wf
  obtain ⟨T, ⟨sh⟩⟩ := sale_shape hw (execute_eff h) hh
  obtain ⟨n, h1, h2, h3⟩ := sh.paid.total
  refine ⟨T, T.price - n, sh.terms, by omega, ?_, ?_⟩
  · intro h0
    have hp := sh.paid
    revert hp h3
    generalize sh.pay = pay
    intro h3 hp
    cases hp with
    | royalty info roy hinfo hroy hpos =>
      simp [royaltyOf, hinfo, hroy] at h0
      omega
    | plain info hinfo hroy htot =>
      have := h3 NATIVE
      simp only [List.cons_append, paidOut, paidOut_append, paidOut_finder, nat_coin, nat_native] at this
      omega
  · rw [ustars_eq, congrArg (Spec.paidOut NATIVE) sh.msgs]
    simp only [paidOut_append, paidOut_refund, h3, nat_native, sh.all.paidOut, paidOut]
    omega

example := C45_total Sample.r6 (Sample.run_eq (c := Sample.ctx 1002) (sender := Sample.carol) (funds := Sample.us 101) (m := Sample.buyMsg)
  (by decide +kernel)) (by decide +kernel)

/-! ### C46: the payments of a sale add up to exactly the price. Violated. -/

def C46_statement : Prop :=
  ∀ (p : Params) (me : Addr) (s s' : State) (ctx : Ctx) (sender : Addr) (funds : List Coin) (m : Exec) (msgs : List Msg) (T : Terms),
    Reach p me s → execute p ctx sender funds m s = .ok (s', msgs) → handed msgs ≠ [] → terms s sender m = some T →
    paidOut ustars msgs = T.price + ((oldBid s sender m).map Bid.price).getD 0

/-- carol buys for 101 with a royalty of 5%: 2 + 5 + 5 + 88 = 100 are paid -/
theorem C46_violated : ¬ C46_statement := by
  intro h
  have := h Sample.P Sample.self Sample.s6 _ (Sample.ctx 1002) Sample.carol (Sample.us 101) Sample.buyMsg _
    ⟨Sample.coll, 1, 101, Sample.alice, Sample.alice, Sample.carol, Sample.carol, some Sample.oper, some 500⟩
    Sample.r6 (Sample.run_eq (by decide +kernel)) (by decide +kernel) rfl
  revert this
  decide +kernel

/-- It does when the royalty on the price is a whole number of units. -/
theorem C46_partial (hr : Reach p me s) (h : execute p ctx sender funds m s = .ok (s', msgs)) (hh : handed msgs ≠ []) {T : Terms}
    (hT : terms s sender m = some T) (hdvd : 10^18 ∣ T.price * royaltyOf ctx.q T.coll) :
    paidOut ustars msgs = T.price + ((oldBid s sender m).map Bid.price).getD 0 := by
  have hw := hr.wf
  obtain ⟨T', ⟨sh⟩⟩ := sale_shape hw (execute_eff h) hh
  have e := sh.terms
  rw [hT] at e; cases e
  rw [ustars_eq, congrArg (Spec.paidOut NATIVE) sh.msgs]
  have hp := sh.paid
  have hkey : Spec.paidOut NATIVE sh.pay = T.price := by
    revert hp
    generalize sh.pay = pay
    intro hp
    cases hp with
    | royalty info roy hinfo hroy hpos hone hfit htot =>
      have hroy' : royaltyOf ctx.q T.coll = roy.share := by simp [royaltyOf, hinfo, hroy]
      rw [hroy'] at hdvd
      obtain ⟨k, hk⟩ := hdvd
      have h1 : T.price * roy.share / ONE = k := by
        rw [hk]; exact Nat.mul_div_cancel_left k ONE_pos
      have h2 : T.price * (ONE - roy.share) / ONE = T.price - k := by
        rw [Nat.mul_sub, hk]
        have : T.price * ONE - 10^18 * k = (T.price - k) * ONE := by
          rw [Nat.sub_mul, Nat.mul_comm k]; rfl
        rw [this, Nat.mul_div_cancel _ ONE_pos]
      simp only [List.cons_append, paidOut, paidOut_append, paidOut_finder, nat_coin, nat_native]
      have h3 : k ≤ T.price := by
        rw [← h1]
        exact Nat.div_le_of_le_mul (by rw [Nat.mul_comm ONE]; exact Nat.mul_le_mul_left _ hone)
      rw [h1]
      rw [h2] at hfit ⊢
      omega
    | plain info hinfo hroy htot =>
      simp only [List.cons_append, paidOut, paidOut_append, paidOut_finder, nat_coin, nat_native]
      omega
  simp only [paidOut_append, paidOut_refund, nat_native, sh.all.paidOut, paidOut, hkey]
  omega

/-- bob's bid is raised to 80 and accepted: the royalty on 80 is 4 -/
def Sample.s6' : State := (Sample.run (Sample.ctx 1001) Sample.bob (Sample.us 80) Sample.bidMsg Sample.s6).1
theorem Sample.r6' : Reach Sample.P Sample.self Sample.s6' := Sample.next Sample.r6 (by decide +kernel) rfl (by decide)
example := C46_partial Sample.r6' (Sample.run_eq (c := Sample.ctx 1002) (sender := Sample.alice) (funds := [])
  (m := .acceptBid Sample.coll 1 Sample.bob none) (by decide +kernel)) (by decide +kernel)
  (T := ⟨Sample.coll, 1, 80, Sample.alice, Sample.alice, Sample.bob, Sample.bob, none, some 300⟩) (by rfl) (by decide +kernel)

/-! ### C50 -/

/-- While a listing is reserved for `r`, a bid on the token or purchase by anybody else fails. -/
theorem C50_refused {c : Addr} {t : Nat} {a : Ask} {r : Addr} (ha : s.asks.get? (c, t) = some a) (hres : a.reserveFor = some r)
    (hne : sender ≠ r) (hb : bidsOn c t m) : ¬ ∃ o, execute p ctx sender funds m s = .ok o := by
  rintro ⟨⟨s', msgs⟩, h⟩
  obtain ⟨b, hm, rfl, rfl⟩ := on_bidArgs hb
  have e := execute_eff h
  cases e with
  | bidSaved m b' price hm' hv hfinder hfee hfunds hpos hmin hexp hask hno =>
    rw [hm] at hm'; cases hm'
    exact hne ((hask a ha).2.2.1 r hres).symm
  | bought m b' price ask sale hm' hv hfinder hfee hfunds hpos hmin ha' hlive hact hres' hty hprice hown hsale =>
    rw [hm] at hm'; cases hm'
    rw [ha] at ha'; cases ha'
    exact hne (hres' r hres).symm
  | _ => exact absurd hb (fun h => h)

/-- Whatever is called while the token is reserved for `r`: nobody but `r` gets a new or changed bid on it, and if the token is
handed over, then to `r`'s order or in a direct acceptance by its owner of a bid (item or collection). -/
theorem C50_effect (hr : Reach p me s) {c : Addr} {t : Nat} {a : Ask} {r : Addr} (ha : s.asks.get? (c, t) = some a)
    (hres : a.reserveFor = some r) (h : execute p ctx sender funds m s = .ok (s', msgs)) :
    (∀ b, b ≠ r → s'.bids.get? (c, t, b) = none ∨ s'.bids.get? (c, t, b) = s.bids.get? (c, t, b)) ∧
    (∀ to, (c, tokStr t, to) ∈ handed msgs → sender = r ∨ ctx.q.ownerOf c (tokStr t) = some sender) := by
  constructor
  · intro b hb
    have ers : ∀ k : BidKey, (s.bids.erase k).get? (c, t, b) = none ∨ (s.bids.erase k).get? (c, t, b) = s.bids.get? (c, t, b) := by
      intro k
      rw [AMap.get?_erase]
      split
      · exact Or.inl rfl
      · exact Or.inr rfl
    have e := execute_eff h
    cases e with
    | bidSaved m b' price hm hv hfinder hfee hfunds hpos hmin hexp hask hno =>
      simp only [AMap.get?_insert]
      split
      case isTrue e =>
        simp only [Prod.mk.injEq] at e
        obtain ⟨rfl, rfl, rfl⟩ := e
        exact absurd ((hask a ha).2.2.1 r hres).symm hb
      · exact ers _
    | bought => exact ers _
    | removeBid => exact ers _
    | acceptBid => exact ers _
    | rejectBid => exact ers _
    | staleBid => exact ers _
    | _ => exact Or.inr rfl
  · intro to hto
    obtain ⟨T, hT, hhd, hown, _, hcase⟩ := C49_consent hr h (by intro e; rw [e] at hto; cases hto)
    rw [hhd, List.mem_singleton] at hto
    simp only [Prod.mk.injEq] at hto
    obtain ⟨rfl, h2, _⟩ := hto
    have := tokStr_inj h2
    subst this
    rcases hcase with ⟨h1, _⟩ | ⟨h1, _⟩ | ⟨h1, h3, _⟩
    · right; rw [hown, h1]
    · right; rw [hown, h1]
    · left
      by_cases hs : sender = r
      · exact hs
      · exact absurd ⟨_, h⟩ (C50_refused ha hres hs h3)

/-- token 1 reserved for bob: carol cannot buy, bob can -/
def Sample.resMsg : Exec := .setAsk .fixedPrice Sample.coll 1 ⟨NATIVE, 90⟩ none (some Sample.bob) none (2000 * Sample.NSs)
def Sample.s8 : State := (Sample.run (Sample.ctx 1001) Sample.alice (Sample.us 3) Sample.resMsg Sample.s6).1
theorem Sample.r8 : Reach Sample.P Sample.self Sample.s8 := Sample.next Sample.r6 (by decide +kernel) rfl (by decide)
example := C50_refused (p := Sample.P) (ctx := Sample.ctx 1002) (sender := Sample.carol) (funds := Sample.us 90) (m := Sample.buyMsg)
  (s := Sample.s8) (c := Sample.coll) (t := 1) (r := Sample.bob)
  (a := ⟨.fixedPrice, Sample.coll, 1, Sample.alice, 90, none, some Sample.bob, none, 2000000000000, true⟩) (by decide +kernel) rfl (by decide)
  ⟨rfl, rfl⟩
example := C50_effect Sample.r8 (c := Sample.coll) (t := 1) (r := Sample.bob)
  (a := ⟨.fixedPrice, Sample.coll, 1, Sample.alice, 90, none, some Sample.bob, none, 2000000000000, true⟩) (by decide +kernel) rfl
  (Sample.run_eq (c := Sample.ctx 1002) (sender := Sample.bob) (funds := Sample.us 90) (m := Sample.buyMsg) (by decide +kernel))

/-! ### C51 -/

/-- Messages only the owner of the token may send, with the token. -/
def Spec.ownerOnly : Exec → Option (Addr × Nat)
  | .setAsk _ c t _ _ _ _ _ | .removeAsk c t | .updateAskPrice c t _ | .acceptBid c t _ _ | .acceptCollectionBid c t _ _
  | .rejectBid c t _ => some (c, t)
  | _ => none

/-- They succeed only if the collection reports the caller as owner. -/
theorem C51_owner {c : Addr} {t : Nat} (hm : ownerOnly m = some (c, t)) (h : execute p ctx sender funds m s = .ok (s', msgs)) :
    ctx.q.ownerOf c (tokStr t) = some sender := by
  have e := execute_eff h
  cases e with
  | setAsk ty coll tok price recipient reserveFor fee expires paid hv hpos hden hmin hmax hown => cases hm; exact hown
  | removeAsk coll tok ask hv hf hown => cases hm; exact hown
  | updatePrice coll tok price ask hv hf hown => cases hm; exact hown
  | acceptBid coll tok bidder finder bid sale hv hf hown => cases hm; exact hown
  | rejectBid coll tok bidder bid hv hf hown => cases hm; exact hown
  | acceptCBid coll tok bidder finder bid sale hv hf hown => cases hm; exact hown
  | bidSaved m b price hm' =>
    cases m <;> simp only [bidArgs, reduceCtorEq] at hm' <;> simp [ownerOnly] at hm
  | bought m b price ask sale hm' =>
    cases m <;> simp only [bidArgs, reduceCtorEq] at hm' <;> simp [ownerOnly] at hm
  | _ => cases hm

/-- Any change of a listing by a call is made by the token's owner, by an operator (activity flag or removal of a stale
listing), or is its sale. -/
theorem C51_frame (hr : Reach p me s) (h : execute p ctx sender funds m s = .ok (s', msgs)) {c : Addr} {t : Nat}
    (hne : s'.asks.get? (c, t) ≠ s.asks.get? (c, t)) :
    ctx.q.ownerOf c (tokStr t) = some sender ∨
    (sender ∈ s.params.operators ∧ (m = .syncAsk c t ∨ m = .removeStaleAsk c t)) ∨
    (bidsOn c t m ∧ ∃ to, handed msgs = [(c, tokStr t, to)]) := by
  have ers : ∀ k : AskKey, (s.asks.erase k).get? (c, t) ≠ s.asks.get? (c, t) → k = (c, t) := by
    intro k hk
    rw [AMap.get?_erase] at hk
    split at hk
    case isTrue e => exact e
    · exact absurd rfl hk
  have ins : ∀ (k : AskKey) (v : Ask), (s.asks.insert k v).get? (c, t) ≠ s.asks.get? (c, t) → k = (c, t) := by
    intro k v hk
    rw [AMap.get?_insert] at hk
    split at hk
    case isTrue e => exact e
    · exact absurd rfl hk
  have e := execute_eff h
  cases e with
  | setAsk ty coll tok price recipient reserveFor fee expires paid hv hpos hden hmin hmax hown =>
    have := ins _ _ hne; cases this; exact Or.inl hown
  | removeAsk coll tok ask hv hf hown => have := ers _ hne; cases this; exact Or.inl hown
  | updatePrice coll tok price ask hv hf hown => have := ins _ _ hne; cases this; exact Or.inl hown
  | acceptBid coll tok bidder finder bid sale hv hf hown => have := ers _ hne; cases this; exact Or.inl hown
  | acceptCBid coll tok bidder finder bid sale hv hf hown => have := ers _ hne; cases this; exact Or.inl hown
  | syncAsk coll tok ask hv hf hop => have := ins _ _ hne; cases this; exact Or.inr (Or.inl ⟨hop, Or.inl rfl⟩)
  | staleAsk coll tok ask hv hf hop => have := ers _ hne; cases this; exact Or.inr (Or.inl ⟨hop, Or.inr rfl⟩)
  | bought m b price ask sale hm hv hfinder hfee hfunds hpos hmin ha hlive hact hres hty hprice hown hsale =>
    have := ers _ hne
    simp only [Prod.mk.injEq] at this
    obtain ⟨rfl, rfl⟩ := this
    subst hprice
    obtain ⟨sh⟩ := bought_shape hr.wf hm ha hsale
    exact Or.inr (Or.inr ⟨bidArgs_on hm, _, sh.handed⟩)
  | _ => exact absurd rfl hne

/-- Sudo messages do not touch orders at all. -/
theorem C51_sudo {u : Sudo} (h : sudo p ctx u s = .ok (s', msgs)) : s'.asks = s.asks ∧ s'.bids = s.bids ∧ s'.cbids = s.cbids := by
  obtain ⟨e, _⟩ := sudo_eff h
  exact ⟨e.orders.1, e.orders.2.1, e.orders.2.2.1⟩

example := C51_owner (c := Sample.coll) (t := 1) rfl (Sample.run_eq (c := Sample.ctx 1000) (sender := Sample.alice) (funds := Sample.us 3)
  (m := Sample.askMsg) (s := Sample.s2) (by decide +kernel))
example : Sample.ok (Sample.ctx 1000) Sample.bob (Sample.us 3) Sample.askMsg Sample.s2 = false := by decide +kernel
example := C51_frame Sample.r6 (Sample.run_eq (c := Sample.ctx 1002) (sender := Sample.carol) (funds := Sample.us 101) (m := Sample.buyMsg)
  (by decide +kernel)) (c := Sample.coll) (t := 1) (by decide +kernel)
example := C51_sudo (Sample.srun_eq (c := Sample.ctx 1000) (m := .addAskHook Sample.hk) (s := Sample.s0) (by decide +kernel))

/-! ### C52: every fixed-price listing is between the minimum in force when it was set and 10^14. Violated. -/

def Spec.maxAsk : Nat := 100000000000000

def C52_statement : Prop :=
  ∀ (p : Params) (me : Addr) (s : State) (k : AskKey) (a : Ask), Reach p me s → s.asks.get? k = some a → a.saleType = .fixedPrice →
    0 < a.price ∧ a.price ≤ maxAsk

/-- alice raises the price of the listing to 10^15 -/
theorem C52_violated : ¬ C52_statement := by
  intro h
  have := h Sample.P Sample.self _ (Sample.coll, 1)
    ⟨.fixedPrice, Sample.coll, 1, Sample.alice, 10^15, none, none, some 500, 2000000000000, true⟩
    (Sample.next Sample.r3 (c := Sample.ctx 1001) (sender := Sample.alice) (funds := []) (m := .updateAskPrice Sample.coll 1 ⟨NATIVE, 10^15⟩)
      (by decide +kernel) rfl (by decide)) (by decide +kernel) rfl
  revert this
  decide +kernel

/-- Prices set by SetAsk are within the limits; a price set by UpdateAskPrice is at least the minimum; nothing else sets a price. -/
theorem C52_partial (h : execute p ctx sender funds m s = .ok (s', msgs)) {k : AskKey} {a : Ask} (ha : s'.asks.get? k = some a) :
    (∃ b, s.asks.get? k = some b ∧ b.price = a.price) ∨
    (0 < a.price ∧ s.params.minPrice ≤ a.price ∧
      ((∃ ty r v f e, m = .setAsk ty k.1 k.2 ⟨ustars, a.price⟩ r v f e ∧ a.price ≤ maxAsk) ∨
        m = .updateAskPrice k.1 k.2 ⟨ustars, a.price⟩)) := by
  have ers : ∀ k' : AskKey, (s.asks.erase k').get? k = some a → ∃ b, s.asks.get? k = some b ∧ b.price = a.price := by
    intro k' hk
    rw [AMap.get?_erase] at hk
    split at hk
    · cases hk
    · exact ⟨a, hk, rfl⟩
  rw [ustars_eq]
  have e := execute_eff h
  cases e with
  | setAsk ty coll tok price recipient reserveFor fee expires paid hv hpos hden hmin hmax hown =>
    simp only [AMap.get?_insert] at ha
    split at ha
    case isTrue e =>
      cases ha; subst e
      obtain ⟨d, n⟩ := price
      subst hden
      exact Or.inr ⟨hpos, hmin, Or.inl ⟨ty, recipient, reserveFor, fee, expires, rfl, hmax⟩⟩
    · exact Or.inl ⟨a, ha, rfl⟩
  | updatePrice coll tok price ask hv hf hown hpos hden hmin hask =>
    simp only [AMap.get?_insert] at ha
    split at ha
    case isTrue e =>
      cases ha; subst e
      obtain ⟨d, n⟩ := price
      subst hden
      exact Or.inr ⟨hpos, hmin, Or.inr rfl⟩
    · exact Or.inl ⟨a, ha, rfl⟩
  | syncAsk coll tok ask hv hf hop hask =>
    simp only [AMap.get?_insert] at ha
    split at ha
    case isTrue e => cases ha; subst e; exact Or.inl ⟨ask, hask, rfl⟩
    · exact Or.inl ⟨a, ha, rfl⟩
  | removeAsk => exact Or.inl (ers _ ha)
  | bought => exact Or.inl (ers _ ha)
  | acceptBid => exact Or.inl (ers _ ha)
  | acceptCBid => exact Or.inl (ers _ ha)
  | staleAsk => exact Or.inl (ers _ ha)
  | _ => exact Or.inl ⟨a, ha, rfl⟩

/-- Without price updates, the upper limit holds for ever. -/
theorem C52_partial_max (h : execute p ctx sender funds m s = .ok (s', msgs)) (hm : ∀ c t n, m ≠ .updateAskPrice c t n)
    (hs : ∀ k a, s.asks.get? k = some a → a.price ≤ maxAsk) : ∀ k a, s'.asks.get? k = some a → a.price ≤ maxAsk := by
  intro k a ha
  rcases C52_partial h ha with ⟨b, hb, e⟩ | ⟨_, _, ⟨_, _, _, _, _, _, h⟩ | h⟩
  · rw [← e]; exact hs k b hb
  · exact h
  · exact absurd h (hm _ _ _)

example := C52_partial (Sample.run_eq (c := Sample.ctx 1000) (sender := Sample.alice) (funds := Sample.us 3) (m := Sample.askMsg)
  (s := Sample.s2) (by decide +kernel)) (k := (Sample.coll, 1))
  (a := ⟨.fixedPrice, Sample.coll, 1, Sample.alice, 101, none, none, some 500, 2000000000000, true⟩) (by decide +kernel)
example := C52_partial_max (Sample.run_eq (c := Sample.ctx 1000) (sender := Sample.alice) (funds := Sample.us 3) (m := Sample.askMsg)
  (s := Sample.s2) (by decide +kernel)) (by intro c t n h; cases h) (by intro k a h; cases h)

/-! ### C56 -/

/-- An order stored after a call either carries the finder's fee of the order stored there before, or one within the maximum
in force (`x` basis points). -/
theorem C56_stored (h : execute p ctx sender funds m s = .ok (s', msgs)) {x f : Nat} (hx : s.params.maxFindersFee = percent x) :
    (∀ k a, s'.asks.get? k = some a → a.findersFee = some f →
      (∃ b, s.asks.get? k = some b ∧ b.findersFee = some f) ∨ f ≤ x) ∧
    (∀ k a, s'.bids.get? k = some a → a.findersFee = some f → s.bids.get? k = some a ∨ f ≤ x) ∧
    (∀ k a, s'.cbids.get? k = some a → a.findersFee = some f → s.cbids.get? k = some a ∨ f ≤ x) := by
  have ers : ∀ {K V : Type} [DecidableEq K] {m : AMap K V} {k' k : K} {a : V}, (m.erase k').get? k = some a → m.get? k = some a := by
    intro K V _ m k' k a hk
    rw [AMap.get?_erase] at hk
    split at hk
    · cases hk
    · exact hk
  have new : ∀ {fee : Option Nat}, (∀ g, fee = some g → percent g ≤ s.params.maxFindersFee) → fee = some f → f ≤ x := by
    intro fee h1 h2
    have := h1 f h2
    rw [hx, percent_le] at this; exact this
  have e := execute_eff h
  refine ⟨?_, ?_, ?_⟩
  · intro k a ha hf
    cases e with
    | setAsk ty coll tok price recipient reserveFor fee expires paid hv hpos hden hmin hmax hown htr happ hexp hpaid hlist hfee =>
      simp only [AMap.get?_insert] at ha
      split at ha
      · cases ha; exact Or.inr (new hfee hf)
      · exact Or.inl ⟨a, ha, hf⟩
    | updatePrice coll tok price ask hv hf' hown hpos hden hmin hask =>
      simp only [AMap.get?_insert] at ha
      split at ha
      case isTrue e => cases ha; subst e; exact Or.inl ⟨ask, hask, hf⟩
      · exact Or.inl ⟨a, ha, hf⟩
    | syncAsk coll tok ask hv hf' hop hask =>
      simp only [AMap.get?_insert] at ha
      split at ha
      case isTrue e => cases ha; subst e; exact Or.inl ⟨ask, hask, hf⟩
      · exact Or.inl ⟨a, ha, hf⟩
    | removeAsk => exact Or.inl ⟨a, ers ha, hf⟩
    | bought => exact Or.inl ⟨a, ers ha, hf⟩
    | acceptBid => exact Or.inl ⟨a, ers ha, hf⟩
    | acceptCBid => exact Or.inl ⟨a, ers ha, hf⟩
    | staleAsk => exact Or.inl ⟨a, ers ha, hf⟩
    | _ => exact Or.inl ⟨a, ha, hf⟩
  · intro k a ha hf
    cases e with
    | bidSaved m b price hm hv hfinder hfee =>
      simp only [AMap.get?_insert] at ha
      split at ha
      · cases ha; exact Or.inr (new hfee hf)
      · exact Or.inl (ers ha)
    | bought => exact Or.inl (ers ha)
    | removeBid => exact Or.inl (ers ha)
    | acceptBid => exact Or.inl (ers ha)
    | rejectBid => exact Or.inl (ers ha)
    | staleBid => exact Or.inl (ers ha)
    | _ => exact Or.inl ha
  · intro k a ha hf
    cases e with
    | setCBid coll expires fee price hv hfunds hpos hmin hexp hfee =>
      simp only [AMap.get?_insert] at ha
      split at ha
      · cases ha; exact Or.inr (new hfee hf)
      · exact Or.inl ha
    | removeCBid => exact Or.inl (ers ha)
    | acceptCBid => exact Or.inl (ers ha)
    | staleCBid => exact Or.inl (ers ha)
    | _ => exact Or.inl ha

/-- Stored finder's fees never exceed 100%. -/
theorem C56_bounded (hr : Reach p me s) {f : Nat} :
    (∀ k a, s.asks.get? k = some a → a.findersFee = some f → f ≤ 10000) ∧
    (∀ k a, s.bids.get? k = some a → a.findersFee = some f → f ≤ 10000) ∧
    (∀ k a, s.cbids.get? k = some a → a.findersFee = some f → f ≤ 10000) :=
  ⟨fun _ _ h hf => (hr.wf.asks _ _ h).fee f hf, fun _ _ h hf => (hr.wf.bids _ _ h).fee f hf,
   fun _ _ h hf => (hr.wf.cbids _ _ h).fee f hf⟩

/-- A sale pays the finder exactly the agreed share of the price (rounded down), if the finder is not also paid in another
role. -/
theorem C56_paid (hr : Reach p me s) (h : execute p ctx sender funds m s = .ok (s', msgs)) (hh : handed msgs ≠ []) :
    ∃ T, terms s sender m = some T ∧ ∀ a, T.finder = some a → a ≠ sender → a ≠ T.payee →
      (∀ i r, ctx.q.collInfo T.coll = some i → i.royalty = some r → r.recipient ≠ a) →
      sentTo a ustars msgs = (match T.fee with
        | some f => share f T.price
        | none => 0) := by
  obtain ⟨T, ⟨sh⟩⟩ := sale_shape hr.wf (execute_eff h) hh
  refine ⟨T, sh.terms, ?_⟩
  intro a ha h1 h2 h3
  have happ : ∀ x y : List Msg, sentTo a NATIVE (x ++ y) = sentTo a NATIVE x + sentTo a NATIVE y := by
    intro x y
    induction x with
    | nil => simp [sentTo]
    | cons m x ih => cases m <;> simp [sentTo, ih]; omega
  have href : sentTo a NATIVE (refund ((oldBid s sender m).map Bid.price) sender) = 0 := by
    cases oldBid s sender m with
    | none => rfl
    | some b => simp [refund, sentTo, Ne.symm h1]
  have hfin : sentTo a NATIVE (finderMsg T.finder (finFee T.price T.finder T.fee)) = (match T.fee with
        | some f => share f T.price
        | none => 0) := by
    rw [finFee_share, ha]
    cases T.fee with
    | none => rfl
    | some f =>
      simp only [finderMsg]
      split
      · simp [sentTo, amountOf, Coin.inDenom]
      case isFalse hz => simp only [sentTo]; omega
  rw [ustars_eq, congrArg (sentTo a NATIVE) sh.msgs]
  rw [happ, happ, happ, href, sh.all.sentTo]
  have hp := sh.paid
  have key : sentTo a NATIVE sh.pay = (match T.fee with
        | some f => share f T.price
        | none => 0) := by
    revert hp
    generalize sh.pay = pay
    intro hp
    cases hp with
    | royalty info roy hinfo hroy =>
      rw [List.cons_append, sentTo]
      · rw [happ, hfin]
        simp [sentTo, h3 info roy hinfo hroy, Ne.symm h2]
      · intro b cs; simp
    | plain info hinfo hroy =>
      rw [List.cons_append, sentTo]
      · rw [happ, hfin]
        simp [sentTo, Ne.symm h2]
      · intro b cs; simp
  rw [key]
  simp [sentTo]

example := C56_stored (Sample.run_eq (c := Sample.ctx 1000) (sender := Sample.bob) (funds := Sample.us 60) (m := Sample.bidMsg)
  (s := Sample.s3) (by decide +kernel)) (x := 1000) (f := 300) rfl
example := C56_bounded Sample.r6 (f := 300)
example := C56_paid Sample.r6 (Sample.run_eq (c := Sample.ctx 1002) (sender := Sample.carol) (funds := Sample.us 101) (m := Sample.buyMsg)
  (by decide +kernel)) (by decide +kernel)
example : sentTo Sample.oper ustars (Sample.run (Sample.ctx 1002) Sample.carol (Sample.us 101) Sample.buyMsg Sample.s6).2 = 5 := by
  decide +kernel

end Verif.V1

/-
Marketplace v2: listing fees of zero (C132) and orders of the same price (C133).
-/
import Verif.V2.PropsBook
import Verif.V2.PropsPurse

namespace Verif.V2
open Verif Spec

section
variable {p : Params} {me : Addr}

/-! ### C132 a listing fee of zero -/

/-- Lowering the listing fee to zero makes listing free: what could be listed for the fee can then be listed with no coins. -/
def C132_statement : Prop :=
  ∀ (p : Params) (me : Addr) (c : Config) (s0 s : State) (l : List Act), instantiate p c = .ok s0 → Diary p me s0 l s →
    l.length + 1 < 2^64 → ∀ (ctx : Ctx) (sender : Addr) (fee : Coin) (coll tok : Bytes) (d : Details) (r : State × List Msg),
    execute p ctx sender [fee] (.setAsk coll tok d) s = .ok r →
    ∀ (actx : Ctx) (admin : Addr) (s' : State) (ms : List Msg),
      execute p actx admin [] (.setListingFee ⟨fee.denom, 0⟩) s = .ok (s', ms) →
      ∃ r', execute p ctx sender [] (.setAsk coll tok d) s' = .ok r'

/-- The call changes the entry of `den` in the table of listing fees. -/
def Spec.sets (den : Denom) : Exec → Prop
  | .setListingFee f => f.denom = den
  | .removeListingFee d => d = den
  | _ => False

/-- Listing needs a coin: without coins every listing fails, and so does every listing while no denom has a positive fee
(such as from the deployment until the admin sets one). -/
theorem C132_partial {ctx : Ctx} {sender : Addr} {funds : List Coin} {s : State} {c t : Bytes} {d : Details} {m : Exec}
    (hm : m = .setAsk c t d ∨ m = .sellNft c t d) (h : funds = [] ∨ ∀ den n, s.listingFees.get? den = some n → n = 0) :
    ∃ e, execute p ctx sender funds m s = .error e := by
  cases hx : execute p ctx sender funds m s with
  | error e => exact ⟨e, rfl⟩
  | ok r =>
    exfalso
    obtain ⟨pay, _, h1, h2, h3, _⟩ := C19_listing_fee (s' := r.1) (msgs := r.2) hm hx
    rcases h with h | h
    · rw [h] at h1; cases h1
    · have := h _ _ h3; omega

/-- Any positive fee does what one expects: when the fee is changed from one to the other, the same listing goes through
for the new fee, with the same orders left afterwards. -/
theorem C132_partial_lower {ctx actx : Ctx} {sender admin : Addr} {fee : Coin} {n : Nat} {s s1 s' : State} {c t : Bytes}
    {d : Details} {msgs ms : List Msg} (hn : 0 < n)
    (hx : execute p ctx sender [fee] (.setAsk c t d) s = .ok (s', msgs))
    (ha : execute p actx admin [] (.setListingFee ⟨fee.denom, n⟩) s = .ok (s1, ms)) :
    ∃ rest, msgs = .send s.config.feeManager [fee] :: rest ∧
      execute p ctx sender [⟨fee.denom, n⟩] (.setAsk c t d) s1 =
        .ok ({ s' with listingFees := s1.listingFees }, .send s.config.feeManager [⟨fee.denom, n⟩] :: rest) := by
  have hs1 : s1 = { s with listingFees := s.listingFees.insert fee.denom n } := by
    cases execute_eff ha with
    | setFee f h => rfl
    | sellAsk m coll tok d pay mb hm' => rcases hm' with hm' | hm' <;> cases hm'
    | buyBid m coll tok d fn left a hm' => rcases hm' with hm' | hm' <;> cases hm'
    | buyCBid m coll d fn left a hm' => rcases hm' with hm' | hm' <;> cases hm'
  have hg : s1.listingFees.get? fee.denom = some n := by rw [hs1]; exact AMap.get?_insert_self ..
  have hmatch : ∀ a : Ask, a.matchWithBid p s1 = a.matchWithBid p s := by intro a; rw [hs1]; rfl
  have hcfg : s1.config = s.config := by rw [hs1]
  have hasks : s1.asks = s.asks := by rw [hs1]
  obtain ⟨pay, rest, h1, h2, h3, h4⟩ := C19_listing_fee (Or.inl rfl) hx
  cases h1
  refine ⟨rest, h4, ?_⟩
  subst h4
  simp only [execute, bind_ok] at hx
  obtain ⟨c', hc', d', hd', hx⟩ := hx
  simp only [execute, hc', hd', ok_bind]
  unfold executeSetAsk at hx ⊢
  simp only [bind_ok] at hx
  obtain ⟨_, a1, _, a2, _, a3, pay, a4, f, a5, _, a6, hx⟩ := hx
  have a3' : onlyValidPrice s1 s1.config c' d'.price = .ok () := by rw [hs1]; exact a3
  have a4' : oneCoin [(⟨fee.denom, n⟩ : Coin)] = .ok ⟨fee.denom, n⟩ := oneCoin_ok.mpr ⟨rfl, hn⟩
  have e := oneCoin_ok.mp a4
  simp only [a1, a2, a3', a4', ok_bind, hg, orErr, ensure, if_true, hmatch]
  rw [hs1] at hmatch hcfg hasks ⊢
  generalize hmb : (Ask.new p sender c' t d').matchWithBid p s = o at hx
  cases e.1
  cases o with
  | none =>
    simp only [Bool.false_eq_true, if_false, bind_ok, ensure] at hx ⊢
    obtain ⟨_, hnew, hx⟩ := hx
    refine ⟨(), hnew, ?_⟩
    simp only [Except.ok.injEq, Prod.mk.injEq, List.singleton_append, List.cons.injEq] at hx ⊢
    obtain ⟨rfl, _, rfl⟩ := hx
    exact ⟨rfl, rfl, rfl⟩
  | some mb =>
    simp only at hx ⊢
    unfold finalizeSale at hx ⊢
    simp only [bind_ok] at hx ⊢
    obtain ⟨pf, hpf, roy, hroy, fees, hfees, pay, hpay, hx⟩ := hx
    refine ⟨pf, hpf, roy, hroy, fees, hfees, pay, hpay, ?_⟩
    simp only [Except.ok.injEq, Prod.mk.injEq, List.append_assoc, List.singleton_append] at hx ⊢
    obtain ⟨rfl, hx⟩ := hx
    refine ⟨?_, ?_⟩
    · cases mb <;> rfl
    · rw [← (List.cons.inj hx).2]; rfl

/-- Every listing fee was set by the admin and not touched since. -/
theorem fee_set {c : Config} {s0 s : State} {l : List Act} (hi : instantiate p c = .ok s0) (h : Diary p me s0 l s)
    {den : Denom} {n : Nat} (hf : s.listingFees.get? den = some n) :
    ∃ l1 y l2, l = l1 ++ y :: l2 ∧ y.msg = .setListingFee ⟨den, n⟩ ∧ y.q.admin = some (some y.sender) ∧
      ∀ z ∈ l1, ¬ sets den z.msg := by
  induction h generalizing n with
  | nil =>
    unfold instantiate at hi
    simp only [bind_ok] at hi
    obtain ⟨_, _, _, _, hi⟩ := hi
    cases hi; simp [AMap.get?_empty] at hf
  | @call l s s' ctx sender funds m msgs hd hself hne hx ih =>
    have step : ∀ (hs : s'.listingFees = s.listingFees) (hm : ¬ sets den m),
        ∃ l1 y l2, (⟨ctx.q, s, sender, funds, m, s', msgs⟩ : Act) :: l = l1 ++ y :: l2 ∧ y.msg = .setListingFee ⟨den, n⟩ ∧
          y.q.admin = some (some y.sender) ∧ ∀ z ∈ l1, ¬ sets den z.msg := by
      intro hs hm
      obtain ⟨l1, y, l2, e, h1, h2, h3⟩ := ih (hs ▸ hf)
      refine ⟨_ :: l1, y, l2, by rw [e]; rfl, h1, h2, ?_⟩
      intro z hz
      rcases List.mem_cons.mp hz with rfl | hz
      · exact hm
      · exact h3 z hz
    cases execute_eff hx with
    | setFee fee hadm =>
      by_cases e : fee.denom = den
      · subst e
        rw [show s.listingFees.insert fee.denom fee.amount = _ from rfl, AMap.get?_insert_self] at hf
        cases hf
        exact ⟨[], _, l, rfl, rfl, admin_ok.mp hadm, by simp⟩
      · have hf' : s.listingFees.get? den = some n := by
          rw [← hf]; exact (AMap.get?_insert ..).trans (if_neg e) |>.symm
        obtain ⟨l1, y, l2, e1, h1, h2, h3⟩ := ih hf'
        refine ⟨_ :: l1, y, l2, by rw [e1]; rfl, h1, h2, ?_⟩
        intro z hz
        rcases List.mem_cons.mp hz with rfl | hz
        · exact e
        · exact h3 z hz
    | rmFee d hadm =>
      by_cases e : d = den
      · subst e
        have := (AMap.get?_erase_self s.listingFees d).symm.trans hf
        cases this
      · have hf' : s.listingFees.get? den = some n := by
          rw [← hf]; exact (AMap.get?_erase ..).trans (if_neg e) |>.symm
        obtain ⟨l1, y, l2, e1, h1, h2, h3⟩ := ih hf'
        refine ⟨_ :: l1, y, l2, by rw [e1]; rfl, h1, h2, ?_⟩
        intro z hz
        rcases List.mem_cons.mp hz with rfl | hz
        · exact e
        · exact h3 z hz
    | sellAsk m _ _ _ _ _ hm => exact step (afterSale_fees ..) (by rcases hm with rfl | rfl <;> exact id)
    | buyBid m _ _ _ _ _ _ hm => exact step (afterSale_fees ..) (by rcases hm with rfl | rfl <;> exact id)
    | buyCBid m _ _ _ _ _ hm => exact step (afterSale_fees ..) (by rcases hm with rfl | rfl <;> exact id)
    | updSell => exact step (afterSale_fees ..) id
    | accAsk => exact step (afterSale_fees ..) id
    | updBuy => exact step (afterSale_fees ..) id
    | accBid => exact step (afterSale_fees ..) id
    | updCBuy => exact step (afterSale_fees ..) id
    | accCBid => exact step (afterSale_fees ..) id
    | _ => exact step rfl id

/-- Whoever lists pays exactly the positive amount that the admin set last for the denom, and the fee was not removed since. -/
theorem C132_partial_set {c : Config} {s0 s : State} {x : Act} {l : List Act} (hi : instantiate p c = .ok s0)
    (h : Diary p me s0 (x :: l) s) {coll t : Bytes} {d : Details} (hm : x.msg = .setAsk coll t d ∨ x.msg = .sellNft coll t d) :
    ∃ fee, x.funds = [fee] ∧ 0 < fee.amount ∧ ∃ l1 y l2, l = l1 ++ y :: l2 ∧ y.msg = .setListingFee fee ∧
      y.q.admin = some (some y.sender) ∧ ∀ z ∈ l1, ¬ sets fee.denom z.msg := by
  cases h with
  | @call l s s' ctx sender funds m msgs hd hself hne hx =>
    obtain ⟨fee, _, h1, h2, h3, _⟩ := C19_listing_fee hm hx
    exact ⟨fee, h1, h2, fee_set hi hd h3⟩

namespace Sample
/-- The admin sets the fee of 5 to 0, and to 3. -/
def z0 : State := (run (ctx none) admin [] (.setListingFee ⟨ust, 0⟩) s1).1
def z3 : State := (run (ctx none) admin [] (.setListingFee ⟨ust, 3⟩) s1).1
theorem pay5_ok : execute P (ctx (some alice)) alice [⟨ust, 5⟩] (.setAsk coll tok (det 100)) s1 =
    .ok (run (ctx (some alice)) alice [⟨ust, 5⟩] (.setAsk coll tok (det 100)) s1) := run_eq (by decide +kernel)
theorem zero_ok : execute P (ctx none) admin [] (.setListingFee ⟨ust, 0⟩) s1 =
    .ok (run (ctx none) admin [] (.setListingFee ⟨ust, 0⟩) s1) := run_eq (by decide +kernel)
theorem three_ok : execute P (ctx none) admin [] (.setListingFee ⟨ust, 3⟩) s1 =
    .ok (run (ctx none) admin [] (.setListingFee ⟨ust, 3⟩) s1) := run_eq (by decide +kernel)
theorem diary1_ok : Diary P self s0 [act (ctx none) admin [] (.setListingFee ⟨ust, 5⟩) s0] s1 :=
  note .nil rfl (by decide) (by decide +kernel)
theorem diary2_ok : Diary P self s0 [act (ctx (some alice)) alice [⟨ust, 5⟩] (.setAsk coll tok (det 100)) s1,
    act (ctx none) admin [] (.setListingFee ⟨ust, 5⟩) s0] s2 :=
  note diary1_ok rfl (by decide) (by decide +kernel)

/-- Nothing can be listed now, with whatever coins. -/
example (funds : List Coin) := C132_partial (p := P) (ctx := ctx (some alice)) (sender := alice) (funds := funds) (s := z0)
  (Or.inl (rfl : _ = Exec.setAsk coll tok (det 100))) (Or.inr (by
    intro den n h
    have e : z0.listingFees.l = [(ust, 0)] := by decide +kernel
    simp only [AMap.get?, e] at h
    by_cases hd : ust = den <;> simp_all))
example := C132_partial_lower (by decide) pay5_ok three_ok
example := C132_partial_set init0 diary2_ok (Or.inl rfl)
end Sample

theorem C132_violated : ¬ C132_statement := by
  intro h
  obtain ⟨r, hr⟩ : ∃ r, execute Sample.P (Sample.ctx (some Sample.alice)) Sample.alice []
      (.setAsk Sample.coll Sample.tok (Sample.det 100)) Sample.z0 = .ok r := h Sample.P Sample.self Sample.cfg Sample.s0 Sample.s1 _ Sample.init0 Sample.diary1_ok (by decide) _ _ _ _ _ _ _
    Sample.pay5_ok _ _ _ _ Sample.zero_ok
  obtain ⟨e, he⟩ := C132_partial (p := Sample.P) (ctx := Sample.ctx (some Sample.alice)) (sender := Sample.alice) (funds := [])
    (s := Sample.z0) (Or.inl (rfl : _ = Exec.setAsk Sample.coll Sample.tok (Sample.det 100))) (Or.inl rfl)
  rw [he] at hr
  cases hr

/-! ### C133 orders of the same price -/

/-- Of two bids of the same price on a token, the one made first is served first: a seller that names no bid (SetAsk, SellNft,
UpdateAsk) does not sell to the later one while the earlier one is open. -/
def C133_statement : Prop :=
  ∀ (p : Params) (me : Addr) (c : Config) (s0 s1 s' : State) (x : Act) (l1 l2 : List Act), 1 ≤ p.maxLimit → HashInj p →
    instantiate p c = .ok s0 → Diary p me s0 l1 s1 → Diary p me s0 (x :: (l2 ++ l1)) s' → (l2 ++ l1).length + 1 < 2^64 →
    ∀ (id1 id2 : Bytes) (b1 b2 : Bid), s1.bids.get? id1 = some b1 → s1.bids.get? id2 = none →
      x.before.bids.get? id1 = some b1 → x.before.bids.get? id2 = some b2 →
      b1.collection = b2.collection → b1.tokenId = b2.tokenId → b1.details.price = b2.details.price →
      AskCall x.msg → x.after.bids.get? id2 = none → x.after.bids.get? id1 = none

theorem pkLe_snd {a b : Nat × Bytes} (h : pkLe a b = true) (he : a.1 = b.1) : bLe a.2 b.2 = true := by
  simp only [pkLe, Bool.or_eq_true, decide_eq_true_eq, Bool.and_eq_true] at h
  rcases h with h | h
  · omega
  · exact h.2

/-- The best token bid has the largest id among those of its price. -/
theorem topBid_tie (hlim : 1 ≤ p.maxLimit) {s : State} {coll tok : Bytes} {den : Denom} {n : Nat} {b : Bid}
    (h : (queryBidsByTokenPrice p s coll tok den (topOpts n)).getLast? = some b) :
    ∃ id, s.bids.get? id = some b ∧ ∀ id' b', s.bids.get? id' = some b' →
      indexStr b'.collection b'.tokenId = indexStr coll tok → b'.details.price.denom = den →
      b'.details.price.amount = b.details.price.amount → bLe id' id = true := by
  unfold queryBidsByTokenPrice at h
  rw [runQuery_one hlim rfl] at h
  simp only [topOpts, Option.getD_some, Option.map_eq_some_iff] at h
  obtain ⟨e, he, rfl⟩ := h
  obtain ⟨hm, h1, _, h3⟩ := scan_head_desc pkLe_total pkLe_trans he
  rw [mem_bidEntries] at hm
  obtain ⟨id, hg, hk, hi, hd⟩ := hm
  rw [okMin_pk_incl, hk] at h1
  refine ⟨id, hg, ?_⟩
  intro id' b' hg' hi' hd' ha
  have := h3 ((b'.details.price.amount, id'), b') (mem_bidEntries.mpr ⟨id', hg', rfl, hi', hd'⟩)
    (okMin_pk_incl.mpr (by simp only at h1 ⊢; omega)) rfl
  rw [hk] at this
  exact pkLe_snd this ha

/-- So does the best collection bid. -/
theorem topCBid_tie (hlim : 1 ≤ p.maxLimit) {s : State} {coll : Bytes} {den : Denom} {n : Nat} {b : CBid}
    (h : (queryCollectionBidsByPrice p s coll den (topOpts n)).getLast? = some b) :
    ∃ id, s.cbids.get? id = some b ∧ ∀ id' b', s.cbids.get? id' = some b' → b'.collection = coll →
      b'.details.price.denom = den → b'.details.price.amount = b.details.price.amount → bLe id' id = true := by
  unfold queryCollectionBidsByPrice at h
  rw [runQuery_one hlim rfl] at h
  simp only [topOpts, Option.getD_some, Option.map_eq_some_iff] at h
  obtain ⟨e, he, rfl⟩ := h
  obtain ⟨hm, h1, _, h3⟩ := scan_head_desc pkLe_total pkLe_trans he
  rw [mem_cbidEntries] at hm
  obtain ⟨id, hg, hk, hi, hd⟩ := hm
  rw [okMin_pk_incl, hk] at h1
  refine ⟨id, hg, ?_⟩
  intro id' b' hg' hi' hd' ha
  have := h3 ((b'.details.price.amount, id'), b') (mem_cbidEntries.mpr ⟨id', hg', rfl, hi', hd'⟩)
    (okMin_pk_incl.mpr (by simp only at h1 ⊢; omega)) rfl
  rw [hk] at this
  exact pkLe_snd this ha

/-- The cheapest ask has the smallest id among those of its price. -/
theorem ask_tie (hlim : 1 ≤ p.maxLimit) {s : State} {b : CBid} {a : Ask} (h : b.matchWithAsk p s = .ok (some a)) :
    ∃ id, s.asks.get? id = some a ∧ a.collection = b.collection ∧ a.details.price.denom = b.details.price.denom ∧
      ∀ id' a', s.asks.get? id' = some a' → a'.collection = b.collection →
      a'.details.price.denom = b.details.price.denom → a'.details.price.amount = a.details.price.amount → bLe id id' = true := by
  unfold CBid.matchWithAsk at h
  simp only [bind_ok, u128_ok, Except.ok.injEq] at h
  obtain ⟨n, ⟨_, rfl⟩, h⟩ := h
  unfold queryAsksByCollectionDenom at h
  rw [runQuery_one hlim rfl] at h
  simp only [Option.getD_some, Option.map_eq_some_iff] at h
  obtain ⟨e, he, rfl⟩ := h
  obtain ⟨hm, _, h2, h3⟩ := scan_head_asc pkLe_total pkLe_trans he
  rw [mem_askEntries] at hm
  obtain ⟨id, hg, hk, hi, hd⟩ := hm
  rw [okMax_pk_excl, hk] at h2
  refine ⟨id, hg, hi, hd, ?_⟩
  intro id' a' hg' hi' hd' ha
  have := h3 ((a'.details.price.amount, id'), a') (mem_askEntries.mpr ⟨id', hg', rfl, hi', hd'⟩) rfl
    (okMax_pk_excl.mpr (by simp only at h2 ⊢; omega))
  rw [hk] at this
  exact pkLe_snd this ha.symm

/-- What a sale does to the bids. -/
theorem afterSale_bids (s : State) (a : Ask) (mb : MatchingBid) :
    (afterSale s a mb).bids = (match mb with | .bid b => s.bids.erase b.id | .cbid _ => s.bids) ∧
    (afterSale s a mb).cbids = (match mb with | .bid _ => s.cbids | .cbid b => s.cbids.erase b.id) := by
  cases mb <;> exact ⟨rfl, rfl⟩

/-- The bid that a seller's call takes. -/
theorem taken {ctx : Ctx} {sender : Addr} {funds : List Coin} {m : Exec} {s s' : State} {msgs : List Msg} (hm : AskCall m)
    (hx : execute p ctx sender funds m s = .ok (s', msgs)) :
    (s'.bids = s.bids ∧ s'.cbids = s.cbids) ∨ ∃ a mb, Ask.matchWithBid p s a = some mb ∧ s' = afterSale s a mb := by
  cases execute_eff hx with
  | restAsk => exact Or.inl ⟨rfl, rfl⟩
  | sellAsk m coll tok d pay mb hm' hv hd hown htr hpr hf hpos hfee hmb x => exact Or.inr ⟨_, mb, hmb, rfl⟩
  | updAsk => exact Or.inl ⟨rfl, rfl⟩
  | updSell id d a mb hf hd ha hcr hpr hmb x => exact Or.inr ⟨_, mb, hmb, rfl⟩
  | buyBid m coll tok d fn left a hm' => rcases hm' with rfl | rfl <;> exact hm.elim
  | buyCBid m coll d fn left a hm' => rcases hm' with rfl | rfl <;> exact hm.elim
  | _ => exact hm.elim

theorem matchWithBid_tie (hlim : 1 ≤ p.maxLimit) {s : State} {a : Ask} {b : Bid} (h : a.matchWithBid p s = some (.bid b)) :
    ∃ id, s.bids.get? id = some b ∧ ∀ id' b', s.bids.get? id' = some b' →
      indexStr b'.collection b'.tokenId = indexStr a.collection a.tokenId → b'.details.price.denom = a.details.price.denom →
      b'.details.price.amount = b.details.price.amount → bLe id' id = true := by
  unfold Ask.matchWithBid at h
  simp only at h
  split at h
  case h_1 b0 c h1 h2 =>
    split at h
    case isTrue hle =>
      simp only [Option.some.injEq, MatchingBid.bid.injEq] at h; subst h
      exact topBid_tie hlim h1
    case isFalse => cases h
  case h_2 b0 h1 h2 =>
    simp only [Option.some.injEq, MatchingBid.bid.injEq] at h; subst h
    exact topBid_tie hlim h1
  · cases h
  · cases h

theorem matchWithBid_ctie (hlim : 1 ≤ p.maxLimit) {s : State} {a : Ask} {b : CBid} (h : a.matchWithBid p s = some (.cbid b)) :
    ∃ id, s.cbids.get? id = some b ∧ ∀ id' b', s.cbids.get? id' = some b' → b'.collection = a.collection →
      b'.details.price.denom = a.details.price.denom →
      b'.details.price.amount = b.details.price.amount → bLe id' id = true := by
  unfold Ask.matchWithBid at h
  simp only at h
  split at h
  case h_1 b0 c h1 h2 =>
    split at h
    case isTrue hle => cases h
    case isFalse hle =>
      simp only [Option.some.injEq, MatchingBid.cbid.injEq] at h; subst h
      exact topCBid_tie hlim h2
  · cases h
  case h_3 c h1 h2 =>
    simp only [Option.some.injEq, MatchingBid.cbid.injEq] at h; subst h
    exact topCBid_tie hlim h2
  · cases h

/-- Among bids of the same price on a token a seller's call takes the one with the largest id, whenever it was made. -/
theorem C133_partial (hlim : 1 ≤ p.maxLimit) {G : State → Prop} {ctx : Ctx} {sender : Addr} {funds : List Coin} {m : Exec}
    {s s' : State} {msgs : List Msg} (hr : Reach p me G s) (hm : AskCall m)
    (hx : execute p ctx sender funds m s = .ok (s', msgs)) {id1 id2 : Bytes} {b1 b2 : Bid}
    (h1 : s.bids.get? id1 = some b1) (h2 : s.bids.get? id2 = some b2) (ht : s'.bids.get? id2 = none)
    (hc : b1.collection = b2.collection) (hk : b1.tokenId = b2.tokenId) (hp : b1.details.price = b2.details.price) :
    bLe id1 id2 = true ∧ (id1 ≠ id2 → s'.bids.get? id1 = some b1) := by
  rcases taken hm hx with ⟨e, _⟩ | ⟨a, mb, hmb, rfl⟩
  · rw [e, h2] at ht; cases ht
  · cases mb with
    | cbid b => rw [(afterSale_bids s a _).1, h2] at ht; cases ht
    | bid b =>
      rw [(afterSale_bids s a _).1] at ht ⊢
      simp only at ht ⊢
      rw [AMap.get?_erase] at ht ⊢
      split at ht
      case isFalse => rw [h2] at ht; cases ht
      case isTrue e =>
        obtain ⟨id, g1, g2⟩ := matchWithBid_tie hlim hmb
        obtain ⟨_, f1, f2, _⟩ := matchWithBid_bid hlim hmb
        have hid := ((Spec.Reach.wf hr).bid g1).1
        rw [e] at hid
        subst hid
        rw [h2] at g1
        cases g1
        refine ⟨g2 id1 b1 h1 (by rw [hc, hk, f1]) (by rw [hp, f2]) (by rw [hp]), fun hne => ?_⟩
        rw [e, if_neg (Ne.symm hne)]; exact h1

/-- The same for collection bids. -/
theorem C133_partial_coll (hlim : 1 ≤ p.maxLimit) {G : State → Prop} {ctx : Ctx} {sender : Addr} {funds : List Coin} {m : Exec}
    {s s' : State} {msgs : List Msg} (hr : Reach p me G s) (hm : AskCall m)
    (hx : execute p ctx sender funds m s = .ok (s', msgs)) {id1 id2 : Bytes} {b1 b2 : CBid}
    (h1 : s.cbids.get? id1 = some b1) (h2 : s.cbids.get? id2 = some b2) (ht : s'.cbids.get? id2 = none)
    (hc : b1.collection = b2.collection) (hp : b1.details.price = b2.details.price) :
    bLe id1 id2 = true ∧ (id1 ≠ id2 → s'.cbids.get? id1 = some b1) := by
  rcases taken hm hx with ⟨_, e⟩ | ⟨a, mb, hmb, rfl⟩
  · rw [e, h2] at ht; cases ht
  · cases mb with
    | bid b => rw [(afterSale_bids s a _).2, h2] at ht; cases ht
    | cbid b =>
      rw [(afterSale_bids s a _).2] at ht ⊢
      simp only at ht ⊢
      rw [AMap.get?_erase] at ht ⊢
      split at ht
      case isFalse => rw [h2] at ht; cases ht
      case isTrue e =>
        obtain ⟨id, g1, g2⟩ := matchWithBid_ctie hlim hmb
        obtain ⟨_, f1, f2, _⟩ := matchWithBid_cbid hlim hmb
        have hid := ((Spec.Reach.wf hr).cbid g1).1
        rw [e] at hid
        subst hid
        rw [h2] at g1
        cases g1
        refine ⟨g2 id1 b1 h1 (by rw [hc, f1]) (by rw [hp, f2]) (by rw [hp]), fun hne => ?_⟩
        rw [e, if_neg (Ne.symm hne)]; exact h1

/-- A buyer of any token of a collection gets, among the cheapest listings, the one with the smallest id. -/
theorem C133_partial_ask (hlim : 1 ≤ p.maxLimit) {G : State → Prop} {ctx : Ctx} {sender : Addr} {funds : List Coin} {m : Exec}
    {s s' : State} {msgs : List Msg} (hr : Reach p me G s) (hm : CollCall m)
    (hx : execute p ctx sender funds m s = .ok (s', msgs)) {id1 id2 : Bytes} {a1 a2 : Ask}
    (h1 : s.asks.get? id1 = some a1) (h2 : s.asks.get? id2 = some a2) (ht : s'.asks.get? id2 = none)
    (hc : a1.collection = a2.collection) (hp : a1.details.price = a2.details.price) :
    bLe id2 id1 = true ∧ (id1 ≠ id2 → s'.asks.get? id1 = some a1) := by
  have fin : ∀ {b : CBid} {a : Ask} {st : State}, b.matchWithAsk p s = .ok (some a) → st.asks = s.asks.erase a.id →
      st.asks.get? id2 = none → bLe id2 id1 = true ∧ (id1 ≠ id2 → st.asks.get? id1 = some a1) := by
    intro b a st ha es ht
    obtain ⟨id, g1, f1, f2, g2⟩ := ask_tie hlim ha
    rw [es, AMap.get?_erase] at ht ⊢
    split at ht
    case isFalse => rw [h2] at ht; cases ht
    case isTrue e =>
      have hid := ((Spec.Reach.wf hr).ask g1).1
      rw [e] at hid
      subst hid
      rw [h2] at g1
      cases g1
      refine ⟨g2 id1 a1 h1 (by rw [hc, f1]) (by rw [hp, f2]) (by rw [hp]), fun hne => ?_⟩
      rw [e, if_neg (Ne.symm hne)]; exact h1
  have hn : ∀ {P : Prop}, s.asks.get? id2 = none → P := by intro P h; rw [h2] at h; cases h
  cases execute_eff hx with
  | restCBid => exact hn ht
  | buyCBid m coll d fn left a hm' hv hd htr hpr hn' ha hl x => exact fin ha rfl ht
  | updCBid => exact hn ht
  | updCBuy id d b a fn fa left hd hb hcr hpr hn' hadd ha hl x => exact fin ha rfl ht
  | sellAsk m coll tok d pay mb hm' => rcases hm' with rfl | rfl <;> exact hm.elim
  | buyBid m coll tok d fn left a hm' => rcases hm' with rfl | rfl <;> exact hm.elim
  | _ => exact hm.elim

namespace Sample
/-- bob bids 80 on the token, then carol bids 80 -/
def e2 : State := (run (ctx (some alice)) bob [⟨ust, 80⟩] (.setBid coll tok (det 80)) s1).1
def e3 : State := (run (ctx (some alice)) carol [⟨ust, 80⟩] (.setBid coll tok (det 80)) e2).1
/-- alice asks for 75 -/
def e4 : State := (run (ctx (some alice)) alice [⟨ust, 5⟩] (.setAsk coll tok (det 75)) e3).1
def ebob : Bid := Bid.new P bob coll tok (det 80) 7 1
def ecarol : Bid := Bid.new P carol coll tok (det 80) 7 2

theorem diaryE2 : Diary P self s0 [act (ctx (some alice)) bob [⟨ust, 80⟩] (.setBid coll tok (det 80)) s1,
    act (ctx none) admin [] (.setListingFee ⟨ust, 5⟩) s0] e2 := note diary1_ok rfl (by decide) (by decide +kernel)
theorem diaryE4 : Diary P self s0 (act (ctx (some alice)) alice [⟨ust, 5⟩] (.setAsk coll tok (det 75)) e3 ::
    ([act (ctx (some alice)) carol [⟨ust, 80⟩] (.setBid coll tok (det 80)) e2] ++
     [act (ctx (some alice)) bob [⟨ust, 80⟩] (.setBid coll tok (det 80)) s1,
      act (ctx none) admin [] (.setListingFee ⟨ust, 5⟩) s0])) e4 :=
  note (note diaryE2 rfl (by decide) (by decide +kernel)) rfl (by decide) (by decide +kernel)

theorem rE3 : Reach P self NoWrap e3 :=
  next (next r1 (by decide +kernel) rfl (by decide) (by decide +kernel)) (by decide +kernel) rfl (by decide) (by decide +kernel)
example := C133_partial (by decide) rE3 (m := .setAsk coll tok (det 75)) trivial (run_eq (c := ctx (some alice)) (sender := alice)
  (funds := [⟨ust, 5⟩]) (by decide +kernel)) (id1 := ebob.id) (id2 := ecarol.id) (b1 := ebob) (b2 := ecarol)
  (by decide +kernel) (by decide +kernel) (by decide +kernel) rfl rfl rfl

/-- the same with bids on the collection -/
def f2 : State := (run (ctx (some alice)) bob [⟨ust, 80⟩] (.setCollectionBid coll (det 80)) s1).1
def f3 : State := (run (ctx (some alice)) carol [⟨ust, 80⟩] (.setCollectionBid coll (det 80)) f2).1
theorem rF3 : Reach P self NoWrap f3 :=
  next (next r1 (by decide +kernel) rfl (by decide) (by decide +kernel)) (by decide +kernel) rfl (by decide) (by decide +kernel)
example := C133_partial_coll (by decide) rF3 (m := .setAsk coll tok (det 75)) trivial (run_eq (c := ctx (some alice)) (sender := alice)
  (funds := [⟨ust, 5⟩]) (by decide +kernel)) (id1 := (CBid.new P bob coll (det 80) 7 1).id) (id2 := (CBid.new P carol coll (det 80) 7 2).id)
  (b1 := CBid.new P bob coll (det 80) 7 1) (b2 := CBid.new P carol coll (det 80) 7 2)
  (by decide +kernel) (by decide +kernel) (by decide +kernel) rfl rfl

/-- alice lists two tokens for 100 each; bob buys any token of the collection -/
def tok2 : Bytes := [50]
def ctx2 : Ctx := { ctx (some alice) with q := { q (some alice) none with ownerOf := fun _ _ => some alice } }
def g3 : State := (run ctx2 alice [⟨ust, 5⟩] (.setAsk coll tok2 (det 100)) s2).1
theorem rG3 : Reach P self NoWrap g3 := next r2 (by decide +kernel) rfl (by decide) (by decide +kernel)
example := C133_partial_ask (by decide) rG3 (m := .buyCollectionNft coll (det 100)) trivial (run_eq (c := ctx2) (sender := bob)
  (funds := [⟨ust, 100⟩]) (by decide +kernel)) (id1 := askId P coll tok2) (id2 := askId P coll tok)
  (a1 := Ask.new P alice coll tok2 (det 100)) (a2 := Ask.new P alice coll tok (det 100))
  (by decide +kernel) (by decide +kernel) (by decide +kernel) rfl rfl
end Sample

theorem C133_violated : ¬ C133_statement := by
  intro h
  have := h Sample.P Sample.self Sample.cfg Sample.s0 _ _ _ _ _ (by decide) Sample.hashInj Sample.init0 Sample.diaryE2 Sample.diaryE4
    (by decide) Sample.ebob.id Sample.ecarol.id Sample.ebob Sample.ecarol (by decide +kernel) (by decide +kernel) (by decide +kernel)
    (by decide +kernel) rfl rfl rfl trivial (by decide +kernel)
  revert this
  decide +kernel

end
end Verif.V2

/-
Facts about the order matching functions. Helper file, no properties.
-/
import Verif.V2.Eff

namespace Verif.V2
open Verif

section
variable {p : Params}

theorem mem_bidEntries {s : State} {coll tok : Bytes} {den : Denom} {e : (Nat × Bytes) × Bid} :
    e ∈ bidEntries s coll tok den ↔ ∃ id, s.bids.get? id = some e.2 ∧ e.1 = (e.2.details.price.amount, id) ∧
      indexStr e.2.collection e.2.tokenId = indexStr coll tok ∧ e.2.details.price.denom = den := by
  unfold bidEntries
  simp only [List.mem_map, List.mem_filter, decide_eq_true_eq, Prod.exists]
  constructor
  · rintro ⟨id, b, ⟨hm, h⟩, rfl⟩
    exact ⟨id, AMap.mem_iff.mp hm, rfl, h.1, h.2⟩
  · rintro ⟨id, hg, he, h1, h2⟩
    refine ⟨id, e.2, ⟨AMap.mem_iff.mpr hg, h1, h2⟩, ?_⟩
    exact Prod.ext he.symm rfl

theorem mem_cbidEntries {s : State} {coll : Bytes} {den : Denom} {e : (Nat × Bytes) × CBid} :
    e ∈ cbidEntries s coll den ↔ ∃ id, s.cbids.get? id = some e.2 ∧ e.1 = (e.2.details.price.amount, id) ∧
      e.2.collection = coll ∧ e.2.details.price.denom = den := by
  unfold cbidEntries
  simp only [List.mem_map, List.mem_filter, decide_eq_true_eq, Prod.exists]
  constructor
  · rintro ⟨id, b, ⟨hm, h⟩, rfl⟩
    exact ⟨id, AMap.mem_iff.mp hm, rfl, h.1, h.2⟩
  · rintro ⟨id, hg, he, h1, h2⟩
    refine ⟨id, e.2, ⟨AMap.mem_iff.mpr hg, h1, h2⟩, ?_⟩
    exact Prod.ext he.symm rfl

theorem mem_askEntries {s : State} {coll : Bytes} {den : Denom} {e : (Nat × Bytes) × Ask} :
    e ∈ askEntries s coll den ↔ ∃ id, s.asks.get? id = some e.2 ∧ e.1 = (e.2.details.price.amount, id) ∧
      e.2.collection = coll ∧ e.2.details.price.denom = den := by
  unfold askEntries
  simp only [List.mem_map, List.mem_filter, decide_eq_true_eq, Prod.exists]
  constructor
  · rintro ⟨id, b, ⟨hm, h⟩, rfl⟩
    exact ⟨id, AMap.mem_iff.mp hm, rfl, h.1, h.2⟩
  · rintro ⟨id, hg, he, h1, h2⟩
    refine ⟨id, e.2, ⟨AMap.mem_iff.mpr hg, h1, h2⟩, ?_⟩
    exact Prod.ext he.symm rfl

def topOpts (amount : Nat) : QOpts (Nat × Bytes) :=
  { descending := some true, limit := some 1, min := some (.incl (amount, [])), max := none }

/-- Top token bid at or above `amount`. -/
theorem topBid_some (hlim : 1 ≤ p.maxLimit) {s : State} {coll tok : Bytes} {den : Denom} {n : Nat} {b : Bid}
    (h : (queryBidsByTokenPrice p s coll tok den (topOpts n)).getLast? = some b) :
    (∃ id, s.bids.get? id = some b) ∧ indexStr b.collection b.tokenId = indexStr coll tok ∧
    b.details.price.denom = den ∧ n ≤ b.details.price.amount ∧
    ∀ id' b', s.bids.get? id' = some b' → indexStr b'.collection b'.tokenId = indexStr coll tok →
      b'.details.price.denom = den → b'.details.price.amount ≤ b.details.price.amount := by
  unfold queryBidsByTokenPrice at h
  rw [runQuery_one hlim rfl] at h
  simp only [topOpts, Option.getD_some, Option.map_eq_some_iff] at h
  obtain ⟨e, he, rfl⟩ := h
  obtain ⟨hm, h1, _, h3⟩ := scan_head_desc pkLe_total pkLe_trans he
  rw [mem_bidEntries] at hm
  obtain ⟨id, hg, hk, hi, hd⟩ := hm
  rw [okMin_pk_incl, hk] at h1
  refine ⟨⟨id, hg⟩, hi, hd, h1, ?_⟩
  intro id' b' hg' hi' hd'
  by_cases hn : n ≤ b'.details.price.amount
  · have := h3 ((b'.details.price.amount, id'), b') (mem_bidEntries.mpr ⟨id', hg', rfl, hi', hd'⟩)
      (okMin_pk_incl.mpr hn) rfl
    have := pkLe_fst this
    rw [hk] at this; exact this
  · simp only at h1; omega

theorem topBid_none (hlim : 1 ≤ p.maxLimit) {s : State} {coll tok : Bytes} {den : Denom} {n : Nat}
    (h : (queryBidsByTokenPrice p s coll tok den (topOpts n)).getLast? = none) :
    ∀ id' b', s.bids.get? id' = some b' → indexStr b'.collection b'.tokenId = indexStr coll tok →
      b'.details.price.denom = den → b'.details.price.amount < n := by
  unfold queryBidsByTokenPrice at h
  rw [runQuery_one hlim rfl] at h
  simp only [topOpts, Option.getD_some, Option.map_eq_none_iff] at h
  intro id' b' hg' hi' hd'
  apply Nat.lt_of_not_le
  intro hn
  exact scan_head_none h ((b'.details.price.amount, id'), b') (mem_bidEntries.mpr ⟨id', hg', rfl, hi', hd'⟩)
      (okMin_pk_incl.mpr hn) rfl

theorem topCBid_some (hlim : 1 ≤ p.maxLimit) {s : State} {coll : Bytes} {den : Denom} {n : Nat} {b : CBid}
    (h : (queryCollectionBidsByPrice p s coll den (topOpts n)).getLast? = some b) :
    (∃ id, s.cbids.get? id = some b) ∧ b.collection = coll ∧
    b.details.price.denom = den ∧ n ≤ b.details.price.amount ∧
    ∀ id' b', s.cbids.get? id' = some b' → b'.collection = coll →
      b'.details.price.denom = den → b'.details.price.amount ≤ b.details.price.amount := by
  unfold queryCollectionBidsByPrice at h
  rw [runQuery_one hlim rfl] at h
  simp only [topOpts, Option.getD_some, Option.map_eq_some_iff] at h
  obtain ⟨e, he, rfl⟩ := h
  obtain ⟨hm, h1, _, h3⟩ := scan_head_desc pkLe_total pkLe_trans he
  rw [mem_cbidEntries] at hm
  obtain ⟨id, hg, hk, hi, hd⟩ := hm
  rw [okMin_pk_incl, hk] at h1
  refine ⟨⟨id, hg⟩, hi, hd, h1, ?_⟩
  intro id' b' hg' hi' hd'
  by_cases hn : n ≤ b'.details.price.amount
  · have := h3 ((b'.details.price.amount, id'), b') (mem_cbidEntries.mpr ⟨id', hg', rfl, hi', hd'⟩)
      (okMin_pk_incl.mpr hn) rfl
    have := pkLe_fst this
    rw [hk] at this; exact this
  · simp only at h1; omega

theorem topCBid_none (hlim : 1 ≤ p.maxLimit) {s : State} {coll : Bytes} {den : Denom} {n : Nat}
    (h : (queryCollectionBidsByPrice p s coll den (topOpts n)).getLast? = none) :
    ∀ id' b', s.cbids.get? id' = some b' → b'.collection = coll →
      b'.details.price.denom = den → b'.details.price.amount < n := by
  unfold queryCollectionBidsByPrice at h
  rw [runQuery_one hlim rfl] at h
  simp only [topOpts, Option.getD_some, Option.map_eq_none_iff] at h
  intro id' b' hg' hi' hd'
  apply Nat.lt_of_not_le
  intro hn
  exact scan_head_none h ((b'.details.price.amount, id'), b') (mem_cbidEntries.mpr ⟨id', hg', rfl, hi', hd'⟩)
      (okMin_pk_incl.mpr hn) rfl

/-- No match: every token bid and collection bid in the denom is below the ask. -/
theorem matchWithBid_none (hlim : 1 ≤ p.maxLimit) {s : State} {a : Ask} (h : a.matchWithBid p s = none) :
    (∀ id b, s.bids.get? id = some b → indexStr b.collection b.tokenId = indexStr a.collection a.tokenId →
      b.details.price.denom = a.details.price.denom → b.details.price.amount < a.details.price.amount) ∧
    (∀ id b, s.cbids.get? id = some b → b.collection = a.collection →
      b.details.price.denom = a.details.price.denom → b.details.price.amount < a.details.price.amount) := by
  unfold Ask.matchWithBid at h
  simp only at h
  split at h
  · split at h <;> cases h
  · cases h
  · cases h
  case h_4 h1 h2 =>
    exact ⟨topBid_none hlim h1, topCBid_none hlim h2⟩

/-- A token bid was matched. -/
theorem matchWithBid_bid (hlim : 1 ≤ p.maxLimit) {s : State} {a : Ask} {b : Bid}
    (h : a.matchWithBid p s = some (.bid b)) :
    (∃ id, s.bids.get? id = some b) ∧ indexStr b.collection b.tokenId = indexStr a.collection a.tokenId ∧
    b.details.price.denom = a.details.price.denom ∧ a.details.price.amount ≤ b.details.price.amount ∧
    (∀ id' b', s.bids.get? id' = some b' → indexStr b'.collection b'.tokenId = indexStr a.collection a.tokenId →
      b'.details.price.denom = a.details.price.denom → b'.details.price.amount ≤ b.details.price.amount) ∧
    (∀ id' b', s.cbids.get? id' = some b' → b'.collection = a.collection →
      b'.details.price.denom = a.details.price.denom → b'.details.price.amount ≤ b.details.price.amount) := by
  unfold Ask.matchWithBid at h
  simp only at h
  split at h
  case h_1 b0 c h1 h2 =>
    split at h
    case isTrue hle =>
      simp only [Option.some.injEq, MatchingBid.bid.injEq] at h; subst h
      obtain ⟨e1, e2, e3, e4, e5⟩ := topBid_some hlim h1
      obtain ⟨_, _, _, _, f5⟩ := topCBid_some hlim h2
      exact ⟨e1, e2, e3, e4, e5, fun id' b' x y z => Nat.le_trans (f5 id' b' x y z) hle⟩
    case isFalse => cases h
  case h_2 b0 h1 h2 =>
    simp only [Option.some.injEq, MatchingBid.bid.injEq] at h; subst h
    obtain ⟨e1, e2, e3, e4, e5⟩ := topBid_some hlim h1
    have f5 := topCBid_none hlim h2
    refine ⟨e1, e2, e3, e4, e5, fun id' b' x y z => ?_⟩
    have := f5 id' b' x y z
    omega
  · cases h
  · cases h

/-- A collection bid was matched. -/
theorem matchWithBid_cbid (hlim : 1 ≤ p.maxLimit) {s : State} {a : Ask} {b : CBid}
    (h : a.matchWithBid p s = some (.cbid b)) :
    (∃ id, s.cbids.get? id = some b) ∧ b.collection = a.collection ∧
    b.details.price.denom = a.details.price.denom ∧ a.details.price.amount ≤ b.details.price.amount ∧
    (∀ id' b', s.bids.get? id' = some b' → indexStr b'.collection b'.tokenId = indexStr a.collection a.tokenId →
      b'.details.price.denom = a.details.price.denom → b'.details.price.amount < b.details.price.amount) ∧
    (∀ id' b', s.cbids.get? id' = some b' → b'.collection = a.collection →
      b'.details.price.denom = a.details.price.denom → b'.details.price.amount ≤ b.details.price.amount) := by
  unfold Ask.matchWithBid at h
  simp only at h
  split at h
  case h_1 b0 c h1 h2 =>
    split at h
    case isTrue hle => cases h
    case isFalse hle =>
      simp only [Option.some.injEq, MatchingBid.cbid.injEq] at h; subst h
      obtain ⟨e1, e2, e3, e4, e5⟩ := topBid_some hlim h1
      obtain ⟨f1, f2, f3, f4, f5⟩ := topCBid_some hlim h2
      refine ⟨f1, f2, f3, f4, fun id' b' x y z => ?_, f5⟩
      have := e5 id' b' x y z
      omega
  · cases h
  case h_3 c h1 h2 =>
    simp only [Option.some.injEq, MatchingBid.cbid.injEq] at h; subst h
    have e5 := topBid_none hlim h1
    obtain ⟨f1, f2, f3, f4, f5⟩ := topCBid_some hlim h2
    refine ⟨f1, f2, f3, f4, fun id' b' x y z => ?_, f5⟩
    have := e5 id' b' x y z
    omega
  · cases h

theorem bidMatch_some {s : State} {b : Bid} {a : Ask} (h : b.matchWithAsk p s = some a) :
    s.asks.get? (askId p b.collection b.tokenId) = some a ∧
    b.details.price.denom = a.details.price.denom ∧ a.details.price.amount ≤ b.details.price.amount := by
  unfold Bid.matchWithAsk at h
  split at h
  case h_1 a' ha =>
    split at h
    case isTrue hc => cases h; exact ⟨ha, hasCoins_single.mp hc⟩
    case isFalse => cases h
  case h_2 => cases h

theorem bidMatch_none {s : State} {b : Bid} (h : b.matchWithAsk p s = none) :
    ∀ a, s.asks.get? (askId p b.collection b.tokenId) = some a →
      a.details.price.denom = b.details.price.denom → b.details.price.amount < a.details.price.amount := by
  intro a ha hd
  unfold Bid.matchWithAsk at h
  rw [ha] at h
  simp only at h
  split at h
  case isTrue => cases h
  case isFalse hc =>
    rw [hasCoins_single] at hc
    apply Nat.lt_of_not_le
    intro hle
    exact hc ⟨hd.symm, hle⟩

theorem cbidMatch_some (hlim : 1 ≤ p.maxLimit) {s : State} {b : CBid} {a : Ask}
    (h : b.matchWithAsk p s = .ok (some a)) :
    (∃ id, s.asks.get? id = some a) ∧ a.collection = b.collection ∧
    a.details.price.denom = b.details.price.denom ∧ a.details.price.amount ≤ b.details.price.amount ∧
    ∀ id' a', s.asks.get? id' = some a' → a'.collection = b.collection →
      a'.details.price.denom = b.details.price.denom → a.details.price.amount ≤ a'.details.price.amount := by
  unfold CBid.matchWithAsk at h
  simp only [bind_ok, u128_ok, Except.ok.injEq] at h
  obtain ⟨n, ⟨_, rfl⟩, h⟩ := h
  unfold queryAsksByCollectionDenom at h
  rw [runQuery_one hlim rfl] at h
  simp only [Option.getD_some, Option.map_eq_some_iff] at h
  obtain ⟨e, he, rfl⟩ := h
  obtain ⟨hm, _, h2, h3⟩ := scan_head_asc pkLe_total pkLe_trans he
  rw [mem_askEntries] at hm
  obtain ⟨id, hg, hk, hi, hd⟩ := hm
  rw [okMax_pk_excl, hk] at h2
  refine ⟨⟨id, hg⟩, hi, hd, h2, ?_⟩
  intro id' a' hg' hi' hd'
  by_cases hn : a'.details.price.amount ≤ b.details.price.amount
  · have := h3 ((a'.details.price.amount, id'), a') (mem_askEntries.mpr ⟨id', hg', rfl, hi', hd'⟩) rfl
      (okMax_pk_excl.mpr hn)
    have := pkLe_fst this
    rw [hk] at this; exact this
  · simp only at h2; omega

theorem cbidMatch_none (hlim : 1 ≤ p.maxLimit) {s : State} {b : CBid}
    (h : b.matchWithAsk p s = .ok none) :
    ∀ id' a', s.asks.get? id' = some a' → a'.collection = b.collection →
      a'.details.price.denom = b.details.price.denom → b.details.price.amount < a'.details.price.amount := by
  unfold CBid.matchWithAsk at h
  simp only [bind_ok, u128_ok, Except.ok.injEq] at h
  obtain ⟨n, ⟨_, rfl⟩, h⟩ := h
  unfold queryAsksByCollectionDenom at h
  rw [runQuery_one hlim rfl] at h
  simp only [Option.getD_some, Option.map_eq_none_iff] at h
  intro id' a' hg' hi' hd'
  apply Nat.lt_of_not_le
  intro hn
  exact scan_head_none h ((a'.details.price.amount, id'), a') (mem_askEntries.mpr ⟨id', hg', rfl, hi', hd'⟩) rfl
      (okMax_pk_excl.mpr hn)

/-- The index string determines collection and token if addresses contain no '/'. -/
theorem indexStr_inj {a b t u : Bytes} (ha : (47 : UInt8) ∉ a) (hb : (47 : UInt8) ∉ b)
    (h : indexStr a t = indexStr b u) : a = b ∧ t = u := by
  unfold indexStr at h
  induction a generalizing b with
  | nil =>
    cases b with
    | nil => simpa using h
    | cons x xs =>
      simp only [List.nil_append, List.cons_append, List.cons.injEq] at h
      exact absurd (h.1 ▸ List.mem_cons_self) hb
  | cons y ys ih =>
    cases b with
    | nil =>
      simp only [List.nil_append, List.cons_append, List.cons.injEq] at h
      exact absurd (h.1 ▸ List.mem_cons_self) ha
    | cons x xs =>
      simp only [List.cons_append, List.cons.injEq] at h
      obtain ⟨h1, h2⟩ := ih (fun hm => ha (List.mem_cons_of_mem _ hm)) (fun hm => hb (List.mem_cons_of_mem _ hm)) h.2
      exact ⟨by rw [h.1, h1], h2⟩

end
end Verif.V2

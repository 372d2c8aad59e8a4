/-
Marketplace v2: properties of the queries (C24) and of the common helpers (C60, C61).
-/
import Verif.V2.PropsSale
import Verif.V2.Query
import Verif.Base.Paging
import Verif.Common.AddrLemmas

namespace Verif.V2
open Verif Spec

section
variable {p : Params} {me : Addr} {G : State → Prop}

/-- Keys of entries taken from a store stay distinct when the id is part of the key. -/
theorem nodup_keys {V : Type} (m : AMap Bytes V) (f : Bytes × V → Bool) (g : Bytes × V → (Nat × Bytes) × V)
    (hg : ∀ e, (g e).1.2 = e.1) : (((m.l.filter f).map g).map Prod.fst).Nodup := by
  rw [List.map_map]
  have h := AMap.nodup_filter f m.nd
  have h' := List.pairwise_map.mp h
  apply List.pairwise_map.mpr
  refine h'.imp ?_
  intro a b hab e
  apply hab
  rw [← hg a, ← hg b]
  exact congrArg Prod.snd e

/-! ### C24 queries -/

/-- Position of an order in the price-sorted lists: price, then id. -/
def Spec.askKey (a : Ask) : Nat × Bytes := (a.details.price.amount, a.id)
def Spec.bidKey (b : Bid) : Nat × Bytes := (b.details.price.amount, b.id)
def Spec.cbidKey (b : CBid) : Nat × Bytes := (b.details.price.amount, b.id)

/-- `all` lists the orders selected by `sel`, each once, by key in the given direction, and paging with page size
`limit` shows the successive parts of that list. -/
structure Spec.Listed {V K : Type} (le : K → K → Bool) (key : V → K) (sel : V → Prop) (query : QOpts K → List V)
    (desc : Bool) (limit : Option Nat) (size : Nat) (mn mx : Option (QBound K)) (all : List V) : Prop where
  mem : ∀ v, v ∈ all ↔ sel v ∧ okMin le mn (key v) = true ∧ okMax le mx (key v) = true
  sorted : all.Pairwise (fun a b => if desc then le (key b) (key a) = true ∧ key b ≠ key a
    else le (key a) (key b) = true ∧ key a ≠ key b)
  nodup : all.Nodup
  pages : ∀ n, walk query key desc limit n mn mx = all.take (n * size)

theorem listed_of_walk {V K : Type} {le : K → K → Bool} (hrefl : ∀ k, le k k = true)
    (htot : ∀ a b, le a b = true ∨ le b a = true)
    (htr : ∀ a b c, le a b = true → le b c = true → le a c = true)
    (hanti : ∀ a b, le a b = true → le b a = true → a = b) {es : List (K × V)} (hnd : (es.map Prod.fst).Nodup)
    {key : V → K} (hkey : ∀ e ∈ es, key e.2 = e.1) {sel : V → Prop} (hsel : ∀ v, (key v, v) ∈ es ↔ sel v)
    (defLimit maxLimit : Nat) (desc : Bool) (limit : Option Nat) (mn mx : Option (QBound K)) :
    ∃ all, Listed le key sel (runQuery le defLimit maxLimit es) desc limit (Nat.min (limit.getD defLimit) maxLimit) mn mx all := by
  obtain ⟨all, h1, h2, h3⟩ := walk_spec htot htr hanti hnd hkey defLimit maxLimit desc limit mn mx
  have hs : all.Pairwise (fun a b => if desc then le (key b) (key a) = true ∧ key b ≠ key a
    else le (key a) (key b) = true ∧ key a ≠ key b) := by
    refine h2.imp ?_
    intro a b h
    cases desc
    · simp only [Bool.false_eq_true, if_false] at h ⊢
      rw [ltK_iff] at h
      exact ⟨h.1, fun e => by rw [e, hrefl] at h; cases h.2⟩
    · simp only [if_true] at h ⊢
      rw [ltK_iff] at h
      exact ⟨h.1, fun e => by rw [e, hrefl] at h; cases h.2⟩
  refine ⟨all, ⟨fun v => by rw [h1 v, hsel v], hs, ?_, h3⟩⟩
  refine hs.imp ?_
  intro a b h e
  subst e
  cases desc
  · exact h.2 rfl
  · exact h.2 rfl

theorem pkLe_refl (k : Nat × Bytes) : pkLe k k = true := (pkLe_total k k).elim id id

/-- `AsksByCollectionDenom`: lists exactly the open asks of the collection in the denom, by price then id. -/
theorem C24_asks {s : State} (hr : Reach p me G s) (coll : Addr) (den : Denom) (desc : Bool) (limit : Option Nat)
    (mn mx : Option (QBound (Nat × Bytes))) :
    ∃ all, Listed pkLe askKey (fun a => (∃ id, s.asks.get? id = some a) ∧ a.collection = coll ∧ a.details.price.denom = den)
      (queryAsksByCollectionDenom p s coll den) desc limit (Nat.min (limit.getD p.defLimit) p.maxLimit) mn mx all := by
  have hw := Spec.Reach.wf hr
  refine listed_of_walk pkLe_refl pkLe_total pkLe_trans (fun _ _ => pkLe_antisymm) ?_ ?_ ?_ _ _ _ _ _ _
  · exact nodup_keys s.asks _ _ (fun _ => rfl)
  · intro e he
    obtain ⟨id, h1, h2, _⟩ := mem_askEntries.mp he
    rw [h2]; exact Prod.ext rfl (hw.ask h1).1
  · intro v
    rw [mem_askEntries]
    constructor
    · rintro ⟨id, h1, _, h3, h4⟩; exact ⟨⟨id, h1⟩, h3, h4⟩
    · rintro ⟨⟨id, h1⟩, h3, h4⟩
      exact ⟨id, h1, Prod.ext rfl (hw.ask h1).1, h3, h4⟩

/-- `BidsByTokenPrice`: lists exactly the open bids on the token in the denom, by price then id. -/
theorem C24_bids {s : State} (hr : Reach p me G s) (hns : NoSlash p) (coll : Addr) (hv : p.valid coll = true) (tok : Bytes)
    (den : Denom) (desc : Bool) (limit : Option Nat) (mn mx : Option (QBound (Nat × Bytes))) :
    ∃ all, Listed pkLe bidKey (fun b => (∃ id, s.bids.get? id = some b) ∧ b.collection = coll ∧ b.tokenId = tok ∧
        b.details.price.denom = den)
      (queryBidsByTokenPrice p s coll tok den) desc limit (Nat.min (limit.getD p.defLimit) p.maxLimit) mn mx all := by
  have hw := Spec.Reach.wf hr
  refine listed_of_walk pkLe_refl pkLe_total pkLe_trans (fun _ _ => pkLe_antisymm) ?_ ?_ ?_ _ _ _ _ _ _
  · exact nodup_keys s.bids _ _ (fun _ => rfl)
  · intro e he
    obtain ⟨id, h1, h2, _⟩ := mem_bidEntries.mp he
    rw [h2]; exact Prod.ext rfl (hw.bid h1).1
  · intro v
    rw [mem_bidEntries]
    constructor
    · rintro ⟨id, h1, _, h3, h4⟩
      obtain ⟨e1, e2⟩ := indexStr_inj (hns _ (hw.bid h1).2.1) (hns _ hv) h3
      exact ⟨⟨id, h1⟩, e1, e2, h4⟩
    · rintro ⟨⟨id, h1⟩, h3, h3', h4⟩
      exact ⟨id, h1, Prod.ext rfl (hw.bid h1).1, by rw [h3, h3'], h4⟩

/-- `CollectionBidsByPrice`: lists exactly the open collection bids in the denom, by price then id. -/
theorem C24_cbids {s : State} (hr : Reach p me G s) (coll : Addr) (den : Denom) (desc : Bool) (limit : Option Nat)
    (mn mx : Option (QBound (Nat × Bytes))) :
    ∃ all, Listed pkLe cbidKey (fun b => (∃ id, s.cbids.get? id = some b) ∧ b.collection = coll ∧ b.details.price.denom = den)
      (queryCollectionBidsByPrice p s coll den) desc limit (Nat.min (limit.getD p.defLimit) p.maxLimit) mn mx all := by
  have hw := Spec.Reach.wf hr
  refine listed_of_walk pkLe_refl pkLe_total pkLe_trans (fun _ _ => pkLe_antisymm) ?_ ?_ ?_ _ _ _ _ _ _
  · exact nodup_keys s.cbids _ _ (fun _ => rfl)
  · intro e he
    obtain ⟨id, h1, h2, _⟩ := mem_cbidEntries.mp he
    rw [h2]; exact Prod.ext rfl (hw.cbid h1).1
  · intro v
    rw [mem_cbidEntries]
    constructor
    · rintro ⟨id, h1, _, h3, h4⟩; exact ⟨⟨id, h1⟩, h3, h4⟩
    · rintro ⟨⟨id, h1⟩, h3, h4⟩
      exact ⟨id, h1, Prod.ext rfl (hw.cbid h1).1, h3, h4⟩

/-- `*ByCreatorCollection`: lists exactly the creator's orders in the collection, by id. -/
theorem C24_own_asks {s : State} (hr : Reach p me G s) (creator coll : Addr) (desc : Bool) (limit : Option Nat)
    (mn mx : Option (QBound Bytes)) :
    ∃ all, Listed bLe Ask.id (fun a => (∃ id, s.asks.get? id = some a) ∧ a.creator = creator ∧ a.collection = coll)
      (queryAsksByCreatorCollection p s creator coll) desc limit (Nat.min (limit.getD p.defLimit) p.maxLimit) mn mx all := by
  have hw := Spec.Reach.wf hr
  refine listed_of_walk bLe_refl bLe_total (fun _ _ _ => bLe_trans) (fun _ _ => bLe_antisymm)
    (AMap.nodup_filter _ s.asks.nd) ?_ ?_ _ _ _ _ _ _
  · rintro ⟨id, a⟩ he
    exact (hw.ask (AMap.mem_iff.mp (List.mem_filter.mp he).1)).1
  · intro v
    simp only [List.mem_filter, AMap.mem_iff, decide_eq_true_eq]
    constructor
    · rintro ⟨h1, h2⟩; exact ⟨⟨_, h1⟩, h2⟩
    · rintro ⟨⟨id, h1⟩, h2⟩; rw [(hw.ask h1).1]; exact ⟨h1, h2⟩

theorem C24_own_bids {s : State} (hr : Reach p me G s) (creator coll : Addr) (desc : Bool) (limit : Option Nat)
    (mn mx : Option (QBound Bytes)) :
    ∃ all, Listed bLe Bid.id (fun a => (∃ id, s.bids.get? id = some a) ∧ a.creator = creator ∧ a.collection = coll)
      (queryBidsByCreatorCollection p s creator coll) desc limit (Nat.min (limit.getD p.defLimit) p.maxLimit) mn mx all := by
  have hw := Spec.Reach.wf hr
  refine listed_of_walk bLe_refl bLe_total (fun _ _ _ => bLe_trans) (fun _ _ => bLe_antisymm)
    (AMap.nodup_filter _ s.bids.nd) ?_ ?_ _ _ _ _ _ _
  · rintro ⟨id, a⟩ he
    exact (hw.bid (AMap.mem_iff.mp (List.mem_filter.mp he).1)).1
  · intro v
    simp only [List.mem_filter, AMap.mem_iff, decide_eq_true_eq]
    constructor
    · rintro ⟨h1, h2⟩; exact ⟨⟨_, h1⟩, h2⟩
    · rintro ⟨⟨id, h1⟩, h2⟩; rw [(hw.bid h1).1]; exact ⟨h1, h2⟩

theorem C24_own_cbids {s : State} (hr : Reach p me G s) (creator coll : Addr) (desc : Bool) (limit : Option Nat)
    (mn mx : Option (QBound Bytes)) :
    ∃ all, Listed bLe CBid.id (fun a => (∃ id, s.cbids.get? id = some a) ∧ a.creator = creator ∧ a.collection = coll)
      (queryCollectionBidsByCreatorCollection p s creator coll) desc limit (Nat.min (limit.getD p.defLimit) p.maxLimit) mn mx all := by
  have hw := Spec.Reach.wf hr
  refine listed_of_walk bLe_refl bLe_total (fun _ _ _ => bLe_trans) (fun _ _ => bLe_antisymm)
    (AMap.nodup_filter _ s.cbids.nd) ?_ ?_ _ _ _ _ _ _
  · rintro ⟨id, a⟩ he
    exact (hw.cbid (AMap.mem_iff.mp (List.mem_filter.mp he).1)).1
  · intro v
    simp only [List.mem_filter, AMap.mem_iff, decide_eq_true_eq]
    constructor
    · rintro ⟨h1, h2⟩; exact ⟨⟨_, h1⟩, h2⟩
    · rintro ⟨⟨id, h1⟩, h2⟩; rw [(hw.cbid h1).1]; exact ⟨h1, h2⟩

/-- Looking orders up by id. -/
theorem C24_by_id (s : State) (id : Bytes) :
    queryAsk s id = s.asks.get? id ∧ queryBid s id = s.bids.get? id ∧ queryCollectionBid s id = s.cbids.get? id := by
  refine ⟨?_, ?_, ?_⟩
  · unfold queryAsk queryAsks; cases h : s.asks.get? id <;> simp [h]
  · unfold queryBid queryBids; cases h : s.bids.get? id <;> simp [h]
  · unfold queryCollectionBid queryCollectionBids; cases h : s.cbids.get? id <;> simp [h]

namespace Sample
/-- three more bids on the token, so that paging has something to do -/
def s5 : State := (run (ctx (some self)) carol [⟨ust, 70⟩] (.setBid coll tok (det 70)) s4).1
def s6 : State := (run (ctx (some self)) alice [⟨ust, 80⟩] (.setBid coll tok (det 80)) s5).1
theorem r5 : Reach P self NoWrap s5 := next r4 (by decide +kernel) rfl (by decide) (by decide +kernel)
theorem r6 : Reach P self NoWrap s6 := next r5 (by decide +kernel) rfl (by decide) (by decide +kernel)
example : (walk (queryBidsByTokenPrice P s6 coll tok ust) bidKey true (some 1) 5 none none).map
    (fun b => (b.creator, b.details.price.amount)) = [(alice, 80), (bob, 80), (carol, 70)] := by decide +kernel
example := C24_bids r6 noSlash coll (by decide) tok ust true (some 1) none none
example := C24_asks r6 coll ust false none none none
example := C24_cbids r6 coll ust false none none none
example := C24_own_bids r6 alice coll false none none none
example : queryAsk s6 aid ≠ none := by decide +kernel
end Sample

end

/-! ### C60 address lists -/

/-- `map_validate` fails iff an input is invalid, and otherwise returns every input once, in ascending order. -/
theorem C60_map_validate (valid : Bytes → Bool) (xs : List Bytes) :
    ((∃ e, mapValidate valid xs = .error e) ↔ ∃ x ∈ xs, valid x = false) ∧
    ∀ r, mapValidate valid xs = .ok r →
      (∀ a, a ∈ r ↔ a ∈ xs) ∧ r.Pairwise (fun a b => bLe a b = true ∧ a ≠ b) := by
  constructor
  · unfold mapValidate
    split
    case isTrue h =>
      simp only [reduceCtorEq, exists_false, false_iff]
      rintro ⟨x, hx, hv⟩
      rw [List.all_eq_true] at h
      rw [h x hx] at hv; cases hv
    case isFalse h =>
      simp only [Except.error.injEq, exists_eq', true_iff]
      rw [List.all_eq_true] at h
      apply Classical.byContradiction
      intro hc
      apply h
      intro x hx
      cases hv : valid x
      · exact absurd ⟨x, hx, hv⟩ hc
      · rfl
  · intro r h
    unfold mapValidate at h
    split at h
    case isFalse => cases h
    case isTrue =>
      cases h
      refine ⟨fun a => by rw [dedup_mem, mem_sortBy], ?_⟩
      exact dedup_sorted _ (sortBy_pairwise bLe_total (fun _ _ _ => bLe_trans) xs)

example : mapValidate (fun _ => true) [[3], [1], [2], [1]] = .ok [[1], [2], [3]] := by decide +kernel

/-! ### C61 checked transfers -/

/-- `checked_transfer_coins` succeeds iff no coin is zero, and then adds exactly one transfer of those coins. -/
theorem C61_checked (cs : List Coin) (to : Addr) (resp : List Msg) :
    ((∃ r, checkedTransferCoins cs to resp = .ok r) ↔ ∀ c ∈ cs, 0 < c.amount) ∧
    ∀ r, checkedTransferCoins cs to resp = .ok r → r = resp ++ [.send to cs] := by
  unfold checkedTransferCoins
  split
  case isTrue h =>
    rw [List.any_eq_true] at h
    obtain ⟨c, hc, h0⟩ := h
    simp only [decide_eq_true_eq] at h0
    refine ⟨⟨?_, ?_⟩, ?_⟩
    · rintro ⟨r, hr⟩; cases hr
    · intro h; have := h c hc; omega
    · intro r hr; cases hr
  case isFalse h =>
    refine ⟨⟨?_, ?_⟩, ?_⟩
    · intro _ c hc
      apply Nat.pos_of_ne_zero
      intro h0
      exact h (List.any_eq_true.mpr ⟨c, hc, by simpa using h0⟩)
    · intro _; exact ⟨_, rfl⟩
    · intro r hr; cases hr; rfl

example := C61_checked [⟨[1], 5⟩] [9] []

end Verif.V2

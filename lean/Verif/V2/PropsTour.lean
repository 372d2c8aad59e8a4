/-
Marketplace v2: paging through listings while orders come and go (C154).
-/
import Verif.V2.PropsQuery
import Verif.Base.Tour

namespace Verif.V2
open Verif Spec

namespace Spec

/-- The options of a client that goes on after a key in the given direction. -/
def goFrom {K : Type} (desc : Bool) (limit : Option Nat) (start : Option K) : QOpts K where
  descending := some desc
  limit := limit
  min := if desc then none else start.map .excl
  max := if desc then start.map .excl else none

/-- Comes strictly earlier in a listing. -/
def earlier {K : Type} (le : K → K → Bool) (desc : Bool) (a b : K) : Prop :=
  if desc then le b a = true ∧ b ≠ a else le a b = true ∧ a ≠ b

end Spec

variable {p : Params} {me : Addr} {G : State → Prop}

theorem earlier_trans {K : Type} {le : K → K → Bool} (h : Lin le) {desc : Bool} (a b c : K) (h1 : earlier le desc a b)
    (h2 : earlier le desc b c) : earlier le desc a c := by
  unfold earlier at *
  cases desc with
  | false =>
    simp only [Bool.false_eq_true, if_false] at *
    refine ⟨h.trans _ _ _ h1.1 h2.1, ?_⟩
    rintro rfl
    exact h1.2 (h.anti _ _ h1.1 h2.1)
  | true =>
    simp only [if_true] at *
    refine ⟨h.trans _ _ _ h2.1 h1.1, ?_⟩
    rintro rfl
    exact h1.2 (h.anti _ _ h1.1 h2.1)

theorem Spec.Listed.page {V K : Type} {le : K → K → Bool} (hl : Lin le) {key : V → K} {sel : V → Prop} {query : QOpts K → List V}
    {desc : Bool} {limit : Option Nat} {size : Nat} {start : Option K}
    (h : ∃ all, Listed le key sel query desc limit size (goFrom desc limit start).min (goFrom desc limit start).max all) :
    PageOf (earlier le desc) key sel size start (query (goFrom desc limit start)) := by
  obtain ⟨all, h⟩ := h
  refine ⟨all, ?_, h.sorted, ?_⟩
  · intro v
    rw [h.mem v]
    have hx : ∀ o : K, (le o (key v) && !le (key v) o) = true ↔ le o (key v) = true ∧ o ≠ key v := fun o => ltK_lin hl
    have hy : ∀ o : K, (le (key v) o && !le o (key v)) = true ↔ le (key v) o = true ∧ key v ≠ o := fun o => ltK_lin hl
    cases start with
    | none => cases desc <;> simp [goFrom, okMin, okMax]
    | some o =>
      cases desc
      · simp only [goFrom, okMin, okMax, earlier, Option.map_some, Bool.false_eq_true, if_false, Option.some.injEq, forall_eq', and_true,
          hx]
      · simp only [goFrom, okMin, okMax, earlier, Option.map_some, if_true, Option.some.injEq, forall_eq', true_and, hy]
  · have := h.pages 1
    rw [Nat.one_mul] at this
    rw [← this]
    unfold walk
    show _ = (match (query (goFrom desc limit start)).getLast? with
      | none => _
      | some v => _)
    split
    · rfl
    · cases desc <;> simp [walk] <;> rfl

theorem pkLin : Lin pkLe := ⟨pkLe_total, pkLe_trans, fun _ _ => pkLe_antisymm⟩

/-- Asks by price: paging while the book changes. -/
theorem C154_asks {states : List State} (hr : ∀ s ∈ states, Reach p me G s) (coll : Addr) (den : Denom) (desc : Bool) (limit : Option Nat)
    (start : Option (Nat × Bytes)) :
    Toured (earlier pkLe desc) askKey (fun s a => (∃ id, s.asks.get? id = some a) ∧ a.collection = coll ∧ a.details.price.denom = den)
      (Nat.min (limit.getD p.defLimit) p.maxLimit) (fun s st => queryAsksByCollectionDenom p s coll den (goFrom desc limit st)) states start :=
  toured (earlier_trans pkLin) (fun s hs _ => Listed.page pkLin (C24_asks (hr s hs) coll den desc limit _ _))

/-- Bids on a token by price. -/
theorem C154_bids (hns : NoSlash p) {states : List State} (hr : ∀ s ∈ states, Reach p me G s) (coll : Addr) (hv : p.valid coll = true)
    (tok : Bytes) (den : Denom) (desc : Bool) (limit : Option Nat) (start : Option (Nat × Bytes)) :
    Toured (earlier pkLe desc) bidKey (fun s b => (∃ id, s.bids.get? id = some b) ∧ b.collection = coll ∧ b.tokenId = tok ∧
        b.details.price.denom = den)
      (Nat.min (limit.getD p.defLimit) p.maxLimit) (fun s st => queryBidsByTokenPrice p s coll tok den (goFrom desc limit st)) states start :=
  toured (earlier_trans pkLin) (fun s hs _ => Listed.page pkLin (C24_bids (hr s hs) hns coll hv tok den desc limit _ _))

/-- Collection bids by price. -/
theorem C154_cbids {states : List State} (hr : ∀ s ∈ states, Reach p me G s) (coll : Addr) (den : Denom) (desc : Bool) (limit : Option Nat)
    (start : Option (Nat × Bytes)) :
    Toured (earlier pkLe desc) cbidKey (fun s b => (∃ id, s.cbids.get? id = some b) ∧ b.collection = coll ∧ b.details.price.denom = den)
      (Nat.min (limit.getD p.defLimit) p.maxLimit) (fun s st => queryCollectionBidsByPrice p s coll den (goFrom desc limit st)) states start :=
  toured (earlier_trans pkLin) (fun s hs _ => Listed.page pkLin (C24_cbids (hr s hs) coll den desc limit _ _))

/-- Orders of one account in a collection. Their place is their id, so repricing does not move them. -/
theorem C154_own {states : List State} (hr : ∀ s ∈ states, Reach p me G s) (creator coll : Addr) (desc : Bool) (limit : Option Nat)
    (start : Option Bytes) :
    Toured (earlier bLe desc) Ask.id (fun s a => (∃ id, s.asks.get? id = some a) ∧ a.creator = creator ∧ a.collection = coll)
      (Nat.min (limit.getD p.defLimit) p.maxLimit) (fun s st => queryAsksByCreatorCollection p s creator coll (goFrom desc limit st)) states start ∧
    Toured (earlier bLe desc) Bid.id (fun s a => (∃ id, s.bids.get? id = some a) ∧ a.creator = creator ∧ a.collection = coll)
      (Nat.min (limit.getD p.defLimit) p.maxLimit) (fun s st => queryBidsByCreatorCollection p s creator coll (goFrom desc limit st)) states start ∧
    Toured (earlier bLe desc) CBid.id (fun s a => (∃ id, s.cbids.get? id = some a) ∧ a.creator = creator ∧ a.collection = coll)
      (Nat.min (limit.getD p.defLimit) p.maxLimit) (fun s st => queryCollectionBidsByCreatorCollection p s creator coll (goFrom desc limit st))
      states start :=
  ⟨toured (earlier_trans bytesLin) (fun s hs _ => Listed.page bytesLin (C24_own_asks (hr s hs) creator coll desc limit _ _)),
   toured (earlier_trans bytesLin) (fun s hs _ => Listed.page bytesLin (C24_own_bids (hr s hs) creator coll desc limit _ _)),
   toured (earlier_trans bytesLin) (fun s hs _ => Listed.page bytesLin (C24_own_cbids (hr s hs) creator coll desc limit _ _))⟩

namespace Sample

/-- A client that looks at the bids from the best down, one by one, while two more come in (70 and another 80): the bid at 80 that was there all the
time is seen once, the end is reached. -/
example := (C154_bids (G := NoWrap) noSlash (states := [s4, s5, s6]) (by
  intro s hs
  simp only [List.mem_cons, List.not_mem_nil, or_false] at hs
  rcases hs with rfl | rfl | rfl
  · exact r4
  · exact r5
  · exact r6) coll (by decide) tok ust true (some 1) none)
example : (tour (fun s st => queryBidsByTokenPrice P s coll tok ust (goFrom true (some 1) st)) bidKey [s4, s5, s6] none).map
    (fun b => (b.creator, b.details.price.amount)) = [(bob, 80), (carol, 70)] := by decide +kernel
example : ends (fun s st => queryBidsByTokenPrice P s coll tok ust (goFrom true (some 1) st)) bidKey 1 [s4, s5, s6] none := by
  refine .inr (.inr (.inl ?_))
  decide +kernel

end Sample

end Verif.V2

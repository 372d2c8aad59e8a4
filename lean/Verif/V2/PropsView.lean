/-
Marketplace v2: the query entry point (C152, C153).
-/
import Verif.V2.Entry
import Verif.V2.PropsQuery
import Verif.Base.View

namespace Verif.V2
open Verif Spec

/-! ### Specification -/

namespace Spec

/-- The addresses in a query. -/
def qAddrs : QueryMsg → List Bytes
  | .collectionDenom c | .asksByCollectionDenom c _ _ | .bidsByTokenPrice c _ _ _ | .collectionBidsByPrice c _ _ => [c]
  | .asksByCreatorCollection x c _ | .bidsByCreatorCollection x c _ | .collectionBidsByCreatorCollection x c _ => [x, c]
  | _ => []

/-- The ids a query looks up. -/
def qIds : QueryMsg → List Bytes
  | .ask id | .bid id | .collectionBid id => [id]
  | .asks ids | .bids ids | .collectionBids ids => ids
  | _ => []

/-- How much a query may show: one per id looked up; for listings the size asked for (or the default), capped. -/
def qSize (p : Params) : QueryMsg → Nat
  | .asksByCollectionDenom _ _ o | .bidsByTokenPrice _ _ _ o | .collectionBidsByPrice _ _ o =>
    Nat.min ((o.bind (·.limit)).getD p.defLimit) p.maxLimit
  | .asksByCreatorCollection _ _ o | .bidsByCreatorCollection _ _ o | .collectionBidsByCreatorCollection _ _ o =>
    Nat.min ((o.bind (·.limit)).getD p.defLimit) p.maxLimit
  | m => (qIds m).length

/-- What a query for asks asks for. -/
def wantsAsk : QueryMsg → Ask → Prop
  | .ask id, a => a.id = id
  | .asks ids, a => a.id ∈ ids
  | .asksByCollectionDenom c d _, a => a.collection = c ∧ a.details.price.denom = d
  | .asksByCreatorCollection x c _, a => a.creator = x ∧ a.collection = c
  | _, _ => False

/-- What a query for bids asks for. -/
def wantsBid : QueryMsg → Bid → Prop
  | .bid id, b => b.id = id
  | .bids ids, b => b.id ∈ ids
  | .bidsByTokenPrice c t d _, b => b.collection = c ∧ b.tokenId = t ∧ b.details.price.denom = d
  | .bidsByCreatorCollection x c _, b => b.creator = x ∧ b.collection = c
  | _, _ => False

/-- What a query for collection bids asks for. -/
def wantsCBid : QueryMsg → CBid → Prop
  | .collectionBid id, b => b.id = id
  | .collectionBids ids, b => b.id ∈ ids
  | .collectionBidsByPrice c d _, b => b.collection = c ∧ b.details.price.denom = d
  | .collectionBidsByCreatorCollection x c _, b => b.creator = x ∧ b.collection = c
  | _, _ => False

end Spec

/-- The open orders shown by an answer. -/
def Answer.asksOf : Answer → List Ask
  | .ask a => a.toList
  | .asks l => l
  | _ => []
def Answer.bidsOf : Answer → List Bid
  | .bid a => a.toList
  | .bids l => l
  | _ => []
def Answer.cbidsOf : Answer → List CBid
  | .cbid a => a.toList
  | .cbids l => l
  | _ => []

variable {p : Params} {me : Addr} {G : State → Prop} {s : State}

/-- A query is answered if and only if all addresses in it are valid. -/
theorem C152_answered_iff {m : QueryMsg} : (∃ r, query p s m = .ok r) ↔ ∀ a ∈ qAddrs m, p.valid a = true := by
  constructor
  · rintro ⟨r, h⟩
    cases m <;> simp only [qAddrs, List.mem_cons, List.not_mem_nil, or_false, forall_eq, forall_eq_or_imp, false_implies, implies_true] <;>
      simp only [query, bind_ok, addrValidate_ok] at h <;>
      first
      | (obtain ⟨_, ⟨h1, _⟩, h⟩ := h; exact h1)
      | (obtain ⟨_, ⟨h1, _⟩, _, ⟨h2, _⟩, h⟩ := h; exact ⟨h1, h2⟩)
  · intro h
    have hv : ∀ a ∈ qAddrs m, addrValidate p a = .ok a := fun a ha => addrValidate_ok.mpr ⟨h a ha, rfl⟩
    cases m <;> simp only [qAddrs, List.mem_cons, List.not_mem_nil, or_false, forall_eq, forall_eq_or_imp] at hv <;>
      simp only [query, hv, ok_bind] <;> exact ⟨_, rfl⟩

example : query Sample.P Sample.s4 (.collectionDenom [6, 6]) = .error .std := rfl

/-! ### What is shown -/

theorem own_vals {V : Type} {m : AMap Bytes V} {f : V → Bool} (back : V → Bytes) (hb : ∀ k v, m.get? k = some v → back v = k) :
    ((m.l.filter (fun e => f e.2)).map Prod.snd).Nodup := by
  have h := index_vals (sel := f) (key := fun k (_ : V) => k) back hb
  unfold index at h
  rw [List.map_map] at h
  exact h

theorem price_vals {V J : Type} {m : AMap Bytes V} {f : V → Bool} {key : Bytes → V → J} (back : V → Bytes)
    (hb : ∀ k v, m.get? k = some v → back v = k) :
    (((m.l.filter (fun e => f e.2)).map (fun e => (key e.1 e.2, e.2))).map Prod.snd).Nodup :=
  index_vals (sel := f) (key := key) back hb

/-- Lookups by id show each order once if each id is asked for once. -/
theorem lookup_nodup {V : Type} {m : AMap Bytes V} (back : V → Bytes) (hb : ∀ k v, m.get? k = some v → back v = k) {ids : List Bytes}
    (h : ids.Nodup) : (ids.filterMap m.get?).Nodup := by
  induction ids with
  | nil => exact List.nodup_nil
  | cons k ks ih =>
    obtain ⟨h1, h2⟩ := List.nodup_cons.mp h
    cases hk : m.get? k with
    | none => rw [List.filterMap_cons_none hk]; exact ih h2
    | some v =>
      rw [List.filterMap_cons_some hk]
      refine List.nodup_cons.mpr ⟨?_, ih h2⟩
      intro hm
      obtain ⟨k', hk', hv⟩ := List.mem_filterMap.mp hm
      have : k' = k := (hb _ _ hv).symm.trans (hb _ _ hk)
      exact h1 (this ▸ hk')

theorem lookup_mem {V : Type} {m : AMap Bytes V} (back : V → Bytes) (hb : ∀ k v, m.get? k = some v → back v = k) {ids : List Bytes}
    {v : V} (h : v ∈ ids.filterMap m.get?) : back v ∈ ids ∧ m.get? (back v) = some v := by
  obtain ⟨k, hk, hv⟩ := List.mem_filterMap.mp h
  rw [hb _ _ hv]
  exact ⟨hk, hv⟩

theorem lookup_one {V : Type} {m : AMap Bytes V} {id : Bytes} : ([id].filterMap m.get?).getLast? = m.get? id := by
  cases h : m.get? id with
  | none => rw [List.filterMap_cons_none h]; rfl
  | some v => rw [List.filterMap_cons_some h]; rfl

theorem opt_nodup {V : Type} (o : Option V) : o.toList.Nodup := by
  cases o with
  | none => exact List.nodup_nil
  | some v => exact List.nodup_cons.mpr ⟨by simp, List.nodup_nil⟩

theorem opt_len {V : Type} (o : Option V) : o.toList.length ≤ 1 := by
  cases o <;> simp

theorem lim_eq {K : Type} (o : Option (QOpts K)) : (o.getD {}).limit = o.bind (·.limit) := by
  cases o <;> rfl

/-- The orders shown by the answer to any query are open orders as they are stored (the lookup by id gives the same), they are
what the query asks for, there are at most as many as asked for and at most the cap, and none is shown twice (unless its id
is asked for twice). -/
theorem C153_asks (hr : Reach p me G s) {m : QueryMsg} {r : Answer} (h : query p s m = .ok r) :
    ((qIds m).Nodup → r.asksOf.Nodup) ∧ r.asksOf.length ≤ qSize p m ∧
      ∀ a ∈ r.asksOf, wantsAsk m a ∧ queryAsk s a.id = some a := by
  have hw := Reach.wf hr
  have hb : ∀ k (v : Ask), s.asks.get? k = some v → v.id = k := fun k v h => (hw.ask h).1
  cases m
  case asksByCollectionDenom c d o =>
    simp only [query, bind_ok, addrValidate_ok] at h
    obtain ⟨_, ⟨-, rfl⟩, h⟩ := h
    cases h
    have v := (runQuery_view : View _ _ _ (queryAsksByCollectionDenom p s c d (o.getD {})))
    refine ⟨fun _ => v.nodup ?_, ?_, ?_⟩
    · exact price_vals (f := fun a : Ask => decide (a.collection = c ∧ a.details.price.denom = d)) (key := fun k a => (a.details.price.amount, k)) _ hb
    · have := v.size
      rw [lim_eq] at this
      exact this
    · intro a ha
      obtain ⟨⟨j, hj⟩, -⟩ := v.mem a ha
      obtain ⟨e, he, heq⟩ := List.mem_map.mp hj
      obtain ⟨h1, h2⟩ := List.mem_filter.mp he
      cases heq
      have h5 := of_decide_eq_true h2
      refine ⟨h5, ?_⟩
      have h3 := AMap.mem_iff.mp h1
      unfold queryAsk queryAsks
      rw [lookup_one, hb _ _ h3]
      exact h3
  case asksByCreatorCollection x c o =>
    simp only [query, bind_ok, addrValidate_ok] at h
    obtain ⟨_, ⟨-, rfl⟩, _, ⟨-, rfl⟩, h⟩ := h
    cases h
    have v := (runQuery_view : View _ _ _ (queryAsksByCreatorCollection p s x c (o.getD {})))
    refine ⟨fun _ => v.nodup ?_, ?_, ?_⟩
    · exact own_vals (f := fun a : Ask => decide (a.creator = x ∧ a.collection = c)) _ hb
    · have := v.size
      rw [lim_eq] at this
      exact this
    · intro a ha
      obtain ⟨⟨j, hj⟩, -⟩ := v.mem a ha
      obtain ⟨h1, h2⟩ := List.mem_filter.mp hj
      have h5 := of_decide_eq_true h2
      refine ⟨h5, ?_⟩
      have h3 := AMap.mem_iff.mp h1
      unfold queryAsk queryAsks
      rw [lookup_one, hb _ _ h3]
      exact h3
  case ask id =>
    cases h
    refine ⟨fun _ => opt_nodup _, opt_len _, ?_⟩
    intro a ha
    have : queryAsk s id = some a := Option.mem_toList.mp ha
    have h2 : a.id = id := hb _ _ (by unfold queryAsk queryAsks at this; rw [lookup_one] at this; exact this)
    exact ⟨h2, h2.symm ▸ this⟩
  case asks ids =>
    cases h
    refine ⟨lookup_nodup _ hb, List.length_filterMap_le _ _, ?_⟩
    intro a ha
    obtain ⟨h1, h2⟩ := lookup_mem (fun a : Ask => a.id) hb ha
    exact ⟨h1, lookup_one.trans h2⟩
  all_goals
    simp only [query, bind_ok] at h
    have : r.asksOf = [] := by
      first
      | (cases h; rfl)
      | (obtain ⟨_, _, h⟩ := h; cases h; rfl)
      | (obtain ⟨_, _, _, _, h⟩ := h; cases h; rfl)
    rw [this]
    exact ⟨fun _ => List.nodup_nil, Nat.zero_le _, fun a ha => nomatch ha⟩

/-- The same for bids, on a chain whose addresses have no '/'. -/
theorem C153_bids (hns : NoSlash p) (hr : Reach p me G s) {m : QueryMsg} {r : Answer} (h : query p s m = .ok r) :
    ((qIds m).Nodup → r.bidsOf.Nodup) ∧ r.bidsOf.length ≤ qSize p m ∧
      ∀ b ∈ r.bidsOf, wantsBid m b ∧ queryBid s b.id = some b := by
  have hw := Reach.wf hr
  have hb : ∀ k (v : Bid), s.bids.get? k = some v → v.id = k := fun k v h => (hw.bid h).1
  cases m
  case bidsByTokenPrice c t d o =>
    simp only [query, bind_ok, addrValidate_ok] at h
    obtain ⟨_, ⟨hc, rfl⟩, h⟩ := h
    cases h
    have v := (runQuery_view : View _ _ _ (queryBidsByTokenPrice p s c t d (o.getD {})))
    refine ⟨fun _ => v.nodup ?_, ?_, ?_⟩
    · exact price_vals (f := fun b : Bid => decide (indexStr b.collection b.tokenId = indexStr c t ∧ b.details.price.denom = d))
        (key := fun k b => (b.details.price.amount, k)) _ hb
    · have := v.size
      rw [lim_eq] at this
      exact this
    · intro a ha
      obtain ⟨⟨j, hj⟩, -⟩ := v.mem a ha
      obtain ⟨e, he, heq⟩ := List.mem_map.mp hj
      obtain ⟨h1, h2⟩ := List.mem_filter.mp he
      cases heq
      have h3 := AMap.mem_iff.mp h1
      have h4 := of_decide_eq_true h2
      obtain ⟨e1, e2⟩ := indexStr_inj (hns _ (hw.bid h3).2.1) (hns _ hc) h4.1
      refine ⟨⟨e1, e2, h4.2⟩, ?_⟩
      unfold queryBid queryBids
      rw [lookup_one, hb _ _ h3]
      exact h3
  case bidsByCreatorCollection x c o =>
    simp only [query, bind_ok, addrValidate_ok] at h
    obtain ⟨_, ⟨-, rfl⟩, _, ⟨-, rfl⟩, h⟩ := h
    cases h
    have v := (runQuery_view : View _ _ _ (queryBidsByCreatorCollection p s x c (o.getD {})))
    refine ⟨fun _ => v.nodup ?_, ?_, ?_⟩
    · exact own_vals (f := fun a : Bid => decide (a.creator = x ∧ a.collection = c)) _ hb
    · have := v.size
      rw [lim_eq] at this
      exact this
    · intro a ha
      obtain ⟨⟨j, hj⟩, -⟩ := v.mem a ha
      obtain ⟨h1, h2⟩ := List.mem_filter.mp hj
      have h5 := of_decide_eq_true h2
      refine ⟨h5, ?_⟩
      have h3 := AMap.mem_iff.mp h1
      unfold queryBid queryBids
      rw [lookup_one, hb _ _ h3]
      exact h3
  case bid id =>
    cases h
    refine ⟨fun _ => opt_nodup _, opt_len _, ?_⟩
    intro a ha
    have : queryBid s id = some a := Option.mem_toList.mp ha
    have h2 : a.id = id := hb _ _ (by unfold queryBid queryBids at this; rw [lookup_one] at this; exact this)
    exact ⟨h2, h2.symm ▸ this⟩
  case bids ids =>
    cases h
    refine ⟨lookup_nodup _ hb, List.length_filterMap_le _ _, ?_⟩
    intro a ha
    obtain ⟨h1, h2⟩ := lookup_mem (fun a : Bid => a.id) hb ha
    exact ⟨h1, lookup_one.trans h2⟩
  all_goals
    simp only [query, bind_ok] at h
    have : r.bidsOf = [] := by
      first
      | (cases h; rfl)
      | (obtain ⟨_, _, h⟩ := h; cases h; rfl)
      | (obtain ⟨_, _, _, _, h⟩ := h; cases h; rfl)
    rw [this]
    exact ⟨fun _ => List.nodup_nil, Nat.zero_le _, fun a ha => nomatch ha⟩

/-- The same for collection bids. -/
theorem C153_collection_bids (hr : Reach p me G s) {m : QueryMsg} {r : Answer} (h : query p s m = .ok r) :
    ((qIds m).Nodup → r.cbidsOf.Nodup) ∧ r.cbidsOf.length ≤ qSize p m ∧
      ∀ b ∈ r.cbidsOf, wantsCBid m b ∧ queryCollectionBid s b.id = some b := by
  have hw := Reach.wf hr
  have hb : ∀ k (v : CBid), s.cbids.get? k = some v → v.id = k := fun k v h => (hw.cbid h).1
  cases m
  case collectionBidsByPrice c d o =>
    simp only [query, bind_ok, addrValidate_ok] at h
    obtain ⟨_, ⟨-, rfl⟩, h⟩ := h
    cases h
    have v := (runQuery_view : View _ _ _ (queryCollectionBidsByPrice p s c d (o.getD {})))
    refine ⟨fun _ => v.nodup ?_, ?_, ?_⟩
    · exact price_vals (f := fun a : CBid => decide (a.collection = c ∧ a.details.price.denom = d)) (key := fun k a => (a.details.price.amount, k)) _ hb
    · have := v.size
      rw [lim_eq] at this
      exact this
    · intro a ha
      obtain ⟨⟨j, hj⟩, -⟩ := v.mem a ha
      obtain ⟨e, he, heq⟩ := List.mem_map.mp hj
      obtain ⟨h1, h2⟩ := List.mem_filter.mp he
      cases heq
      have h5 := of_decide_eq_true h2
      refine ⟨h5, ?_⟩
      have h3 := AMap.mem_iff.mp h1
      unfold queryCollectionBid queryCollectionBids
      rw [lookup_one, hb _ _ h3]
      exact h3
  case collectionBidsByCreatorCollection x c o =>
    simp only [query, bind_ok, addrValidate_ok] at h
    obtain ⟨_, ⟨-, rfl⟩, _, ⟨-, rfl⟩, h⟩ := h
    cases h
    have v := (runQuery_view : View _ _ _ (queryCollectionBidsByCreatorCollection p s x c (o.getD {})))
    refine ⟨fun _ => v.nodup ?_, ?_, ?_⟩
    · exact own_vals (f := fun a : CBid => decide (a.creator = x ∧ a.collection = c)) _ hb
    · have := v.size
      rw [lim_eq] at this
      exact this
    · intro a ha
      obtain ⟨⟨j, hj⟩, -⟩ := v.mem a ha
      obtain ⟨h1, h2⟩ := List.mem_filter.mp hj
      have h5 := of_decide_eq_true h2
      refine ⟨h5, ?_⟩
      have h3 := AMap.mem_iff.mp h1
      unfold queryCollectionBid queryCollectionBids
      rw [lookup_one, hb _ _ h3]
      exact h3
  case collectionBid id =>
    cases h
    refine ⟨fun _ => opt_nodup _, opt_len _, ?_⟩
    intro a ha
    have : queryCollectionBid s id = some a := Option.mem_toList.mp ha
    have h2 : a.id = id := hb _ _ (by unfold queryCollectionBid queryCollectionBids at this; rw [lookup_one] at this; exact this)
    exact ⟨h2, h2.symm ▸ this⟩
  case collectionBids ids =>
    cases h
    refine ⟨lookup_nodup _ hb, List.length_filterMap_le _ _, ?_⟩
    intro a ha
    obtain ⟨h1, h2⟩ := lookup_mem (fun a : CBid => a.id) hb ha
    exact ⟨h1, lookup_one.trans h2⟩
  all_goals
    simp only [query, bind_ok] at h
    have : r.cbidsOf = [] := by
      first
      | (cases h; rfl)
      | (obtain ⟨_, _, h⟩ := h; cases h; rfl)
      | (obtain ⟨_, _, _, _, h⟩ := h; cases h; rfl)
    rw [this]
    exact ⟨fun _ => List.nodup_nil, Nat.zero_le _, fun a ha => nomatch ha⟩

example := C153_collection_bids Sample.r4 (m := .collectionBidsByPrice Sample.coll Sample.ust none)
  (r := .cbids (queryCollectionBidsByPrice Sample.P Sample.s4 Sample.coll Sample.ust {})) rfl
example : (queryCollectionBidsByPrice Sample.P Sample.s4 Sample.coll Sample.ust {}).map (fun b => b.details.price.amount) = [90] := by
  decide +kernel

end Verif.V2

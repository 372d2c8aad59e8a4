/-
Marketplace v1: the query entry point (C152, C153).
-/
import Verif.V1.Entry
import Verif.V1.PropsQueryMore
import Verif.Base.View

namespace Verif.V1
open Verif Spec

/-! ### Specification -/

namespace Spec

/-- The addresses a query is about. -/
def qAbout : QueryMsg → List Bytes
  | .ask c _ | .asks c _ _ _ | .reverseAsks c _ _ _ | .asksSortedByPrice c _ _ _ | .reverseAsksSortedByPrice c _ _ _ | .askCount c
  | .bids c _ _ _ | .bidsSortedByPrice c _ _ | .reverseBidsSortedByPrice c _ _ | .collectionBidsSortedByPrice c _ _
  | .reverseCollectionBidsSortedByPrice c _ _ => [c]
  | .bid c _ b | .collectionBid c b => [c, b]
  | .asksBySeller x _ _ _ | .bidsByBidder x _ _ | .bidsByBidderSortedByExpiration x _ _ | .collectionBidsByBidder x _ _
  | .collectionBidsByBidderSortedByExpiration x _ _ => [x]
  | _ => []

/-- The addresses in the offset from which a listing is to go on. -/
def qOffsets : QueryMsg → List Bytes
  | .collections st _ | .bids _ _ st _ => st.toList
  | .asksBySeller _ _ st _ | .bidsByBidder _ st _ | .bidsByBidderSortedByExpiration _ st _ | .collectionBidsByBidder _ st _ =>
    st.toList.map Prod.fst
  | .bidsSortedByPrice _ st _ | .reverseBidsSortedByPrice _ st _ => st.toList.map (fun o => o.2.2)
  | .collectionBidsByBidderSortedByExpiration _ st _ | .collectionBidsSortedByPrice _ st _
  | .reverseCollectionBidsSortedByPrice _ st _ => st.toList.flatMap (fun o => [o.bidder, o.collection])
  | _ => []

/-- The page size asked for. -/
def qLimit : QueryMsg → Option Nat
  | .collections _ l | .asks _ _ _ l | .reverseAsks _ _ _ l | .asksSortedByPrice _ _ _ l | .reverseAsksSortedByPrice _ _ _ l
  | .asksBySeller _ _ _ l | .bidsByBidder _ _ l | .bidsByBidderSortedByExpiration _ _ l | .bids _ _ _ l | .bidsSortedByPrice _ _ l
  | .reverseBidsSortedByPrice _ _ l | .collectionBidsByBidder _ _ l | .collectionBidsByBidderSortedByExpiration _ _ l
  | .collectionBidsSortedByPrice _ _ l | .reverseCollectionBidsSortedByPrice _ _ l => l
  | _ => none

/-- What a query for asks asks for. -/
def wantsAsk : QueryMsg → Ask → Prop
  | .asks c i _ _, a | .reverseAsks c i _ _, a | .asksSortedByPrice c i _ _, a | .reverseAsksSortedByPrice c i _ _, a =>
    a.collection = c ∧ (i = some true ∨ a.isActive = true)
  | .asksBySeller x i _ _, a => a.seller = x ∧ (i = some true ∨ a.isActive = true)
  | .ask c t, a => a.collection = c ∧ a.tokenId = t
  | _, _ => False

/-- What a query for bids asks for. -/
def wantsBid : QueryMsg → Bid → Prop
  | .bidsByBidder x _ _, b | .bidsByBidderSortedByExpiration x _ _, b => b.bidder = x
  | .bids c t _ _, b => b.collection = c ∧ b.tokenId = t
  | .bidsSortedByPrice c _ _, b | .reverseBidsSortedByPrice c _ _, b => b.collection = c
  | .bid c t x, b => b.collection = c ∧ b.tokenId = t ∧ b.bidder = x
  | _, _ => False

/-- What a query for collection bids asks for. -/
def wantsCBid : QueryMsg → CBid → Prop
  | .collectionBidsByBidder x _ _, b | .collectionBidsByBidderSortedByExpiration x _ _, b => b.bidder = x
  | .collectionBidsSortedByPrice c _ _, b | .reverseCollectionBidsSortedByPrice c _ _, b => b.collection = c
  | .collectionBid c x, b => b.collection = c ∧ b.bidder = x
  | _, _ => False

end Spec

/-- The open orders shown by an answer. -/
def Answer.asksOf : Answer → List Ask
  | .ask a => a.toList
  | .asks l => l
  | _ => []
def Answer.bidsOf : Answer → List Bid
  | .bid a => a.toList
  | .bids l => l
  | _ => []
def Answer.cbidsOf : Answer → List CBid
  | .cbid a => a.toList
  | .cbids l => l
  | _ => []


/-- A query is answered if and only if all addresses in it are valid. -/
def C152_statement : Prop :=
  ∀ (p : Params) (s : State) (m : QueryMsg), (∃ r, query p s m = .ok r) ↔ ∀ a ∈ qAbout m ++ qOffsets m, p.valid a = true

variable {p : Params} {me : Addr} {s : State}

theorem offset_ok {O : Type} {f : O → List Bytes} {o : Option O} :
    (∃ u, offset p f o = .ok u) ↔ ∀ x, o = some x → ∀ a ∈ f x, p.valid a = true := by
  cases o with
  | none => simp [offset]
  | some x =>
    simp only [offset, Option.some.injEq, forall_eq']
    induction f x with
    | nil => simp [List.foldlM, pure, Except.pure]
    | cons a l ih =>
      rw [List.foldlM_cons]
      by_cases h : p.valid a = true
      · have : addrValidate p a = .ok a := by simp [addrValidate, h]
        rw [this]
        simp only [List.mem_cons, forall_eq_or_imp, h, true_and]
        exact ih
      · have : addrValidate p a = .error .std := by simp [addrValidate, h]
        rw [this]
        exact ⟨fun hu => (by obtain ⟨u, hu⟩ := hu; cases hu), fun hu => absurd (hu a List.mem_cons_self) h⟩

theorem valid_ok {a : Bytes} (h : p.valid a = true) : addrValidate p a = .ok a := by unfold addrValidate; rw [if_pos h]

theorem offset_of {O : Type} {f : O → List Bytes} {o : Option O} (h : ∀ x, o = some x → ∀ a ∈ f x, p.valid a = true) :
    offset p f o = .ok () := by
  obtain ⟨u, hu⟩ := offset_ok.mpr h
  exact hu

/-- What holds: a query whose addresses are all valid is answered; it never fails otherwise. -/
theorem C152_partial_answers {m : QueryMsg} (h : ∀ a ∈ qAbout m ++ qOffsets m, p.valid a = true) : ∃ r, query p s m = .ok r := by
  have hv : ∀ a ∈ qAbout m, addrValidate p a = .ok a := fun a ha => valid_ok (h a (List.mem_append_left _ ha))
  have ho : ∀ a ∈ qOffsets m, p.valid a = true := fun a ha => h a (List.mem_append_right _ ha)
  cases m <;> simp only [qAbout, List.mem_cons, List.not_mem_nil, or_false, forall_eq, forall_eq_or_imp] at hv <;>
    simp only [query, hv, ok_bind] <;> first
    | exact ⟨_, rfl⟩
    | (rw [offset_of (by
          rintro x rfl a ha
          apply ho
          revert ha
          simp only [qOffsets, Option.toList, List.map, List.flatMap_cons, List.flatMap_nil, List.append_nil, List.mem_cons, List.not_mem_nil,
            or_false]
          intro h
          first | exact h | exact .inl h)]
       exact ⟨_, rfl⟩)

/-- What holds: a query about something that is not a valid address is refused. Missing: addresses in the offsets of Bids, BidsSortedByPrice
and ReverseBidsSortedByPrice and the collections in those of the collection bids sorted by price are not looked at. -/
theorem C152_partial_refuses {m : QueryMsg} {r : Answer} (h : query p s m = .ok r) : ∀ a ∈ qAbout m, p.valid a = true := by
  cases m <;> simp only [qAbout, List.mem_cons, List.not_mem_nil, or_false, forall_eq, forall_eq_or_imp, false_implies, implies_true] <;>
    simp only [query, bind_ok, addrValidate_ok] at h <;>
    first
    | (obtain ⟨_, ⟨h1, _⟩, h⟩ := h; exact h1)
    | (obtain ⟨_, ⟨h1, _⟩, _, ⟨h2, _⟩, h⟩ := h; exact ⟨h1, h2⟩)

/-- A query for the bids on a token after something that is no address is answered. -/
theorem C152_violated : ¬ C152_statement := by
  intro h
  have := (h Sample.P Sample.s6 (.bids Sample.coll 1 (some [6]) none)).mp ⟨_, rfl⟩ [6]
    (by decide)
  exact absurd this (by decide)

example := C152_partial_answers (p := Sample.P) (s := Sample.s6) (m := .bids Sample.coll 1 (some Sample.bob) none) (by decide)
example : query Sample.P Sample.s6 (.asksBySeller Sample.alice none (some ([6], 1)) none) = .error .std := rfl

theorem asks_shown (hw : WF p me s) {J : Type} {sel : Ask → Bool} {key : AskKey → Ask → J} {f : Ask → Bool} {n : Nat} {l : List Ask}
    (v : View (index s.asks sel key) f n l) :
    l.Nodup ∧ l.length ≤ n ∧ ∀ a ∈ l, (sel a = true ∧ f a = true) ∧ queryAsk s a.collection a.tokenId = some a := by
  refine ⟨v.nodup (index_vals (fun a => (a.collection, a.tokenId)) (fun k a h => (hw.asks k a h).key)), v.size, ?_⟩
  intro a ha
  obtain ⟨⟨j, hj⟩, hf⟩ := v.mem a ha
  obtain ⟨k, hk, hs, _⟩ := mem_index.mp hj
  refine ⟨⟨hs, hf⟩, ?_⟩
  unfold queryAsk
  rw [(hw.asks k a hk).key]
  exact hk

theorem bids_shown (hw : WF p me s) {J : Type} {sel : Bid → Bool} {key : BidKey → Bid → J} {f : Bid → Bool} {n : Nat} {l : List Bid}
    (v : View (index s.bids sel key) f n l) :
    l.Nodup ∧ l.length ≤ n ∧ ∀ b ∈ l, sel b = true ∧ queryBid s b.collection b.tokenId b.bidder = some b := by
  refine ⟨v.nodup (index_vals (fun b => (b.collection, b.tokenId, b.bidder)) (fun k b h => (hw.bids k b h).key)), v.size, ?_⟩
  intro b hb
  obtain ⟨⟨j, hj⟩, -⟩ := v.mem b hb
  obtain ⟨k, hk, hs, _⟩ := mem_index.mp hj
  refine ⟨hs, ?_⟩
  unfold queryBid
  rw [(hw.bids k b hk).key]
  exact hk

theorem cbids_shown (hw : WF p me s) {J : Type} {sel : CBid → Bool} {key : CBidKey → CBid → J} {f : CBid → Bool} {n : Nat}
    {l : List CBid} (v : View (index s.cbids sel key) f n l) :
    l.Nodup ∧ l.length ≤ n ∧ ∀ b ∈ l, sel b = true ∧ queryCollectionBid s b.collection b.bidder = some b := by
  refine ⟨v.nodup (index_vals (fun b => (b.collection, b.bidder)) (fun k b h => (hw.cbids k b h).key)), v.size, ?_⟩
  intro b hb
  obtain ⟨⟨j, hj⟩, -⟩ := v.mem b hb
  obtain ⟨k, hk, hs, _⟩ := mem_index.mp hj
  refine ⟨hs, ?_⟩
  unfold queryCollectionBid
  rw [(hw.cbids k b hk).key]
  exact hk

theorem showAsk_iff {i : Option Bool} {a : Ask} : showAsk i a = true → i = some true ∨ a.isActive = true := by
  unfold showAsk
  split <;> simp_all

theorem one_le (n : Option Nat) (h : n = none) : 1 ≤ pageSize n := by subst h; decide

/-- The orders shown by the answer to any query are open orders as they are stored (the lookup by key gives the same), they are
what the query asks for, none is shown twice, and there are at most as many as asked for and at most 100. -/
theorem C153_asks (hr : Reach p me s) {m : QueryMsg} {r : Answer} (h : query p s m = .ok r) :
    r.asksOf.Nodup ∧ r.asksOf.length ≤ pageSize (qLimit m) ∧
      ∀ a ∈ r.asksOf, wantsAsk m a ∧ queryAsk s a.collection a.tokenId = some a := by
  have hw := hr.wf
  cases m
  case asks c i st l =>
    simp only [query, bind_ok, addrValidate_ok] at h
    obtain ⟨_, ⟨-, rfl⟩, h⟩ := h
    cases h
    obtain ⟨h1, h2, h3⟩ := asks_shown hw (page_view : View _ _ _ (queryAsks s c i st l))
    exact ⟨h1, Nat.le_trans h2 (Nat.le_of_eq (pageSize_eq l)), fun a ha => ⟨⟨by simpa using (h3 a ha).1.1, showAsk_iff (h3 a ha).1.2⟩, (h3 a ha).2⟩⟩
  case reverseAsks c i st l =>
    simp only [query, bind_ok, addrValidate_ok] at h
    obtain ⟨_, ⟨-, rfl⟩, h⟩ := h
    cases h
    obtain ⟨h1, h2, h3⟩ := asks_shown hw (page_view : View _ _ _ (reverseQueryAsks s c i st l))
    exact ⟨h1, Nat.le_trans h2 (Nat.le_of_eq (pageSize_eq l)), fun a ha => ⟨⟨by simpa using (h3 a ha).1.1, showAsk_iff (h3 a ha).1.2⟩, (h3 a ha).2⟩⟩
  case asksSortedByPrice c i st l =>
    simp only [query, bind_ok, addrValidate_ok] at h
    obtain ⟨_, ⟨-, rfl⟩, h⟩ := h
    cases h
    obtain ⟨h1, h2, h3⟩ := asks_shown hw (page_view : View _ _ _ (queryAsksSortedByPrice s c i st l))
    exact ⟨h1, Nat.le_trans h2 (Nat.le_of_eq (pageSize_eq l)), fun a ha => ⟨⟨by simpa using (h3 a ha).1.1, showAsk_iff (h3 a ha).1.2⟩, (h3 a ha).2⟩⟩
  case reverseAsksSortedByPrice c i st l =>
    simp only [query, bind_ok, addrValidate_ok] at h
    obtain ⟨_, ⟨-, rfl⟩, h⟩ := h
    cases h
    obtain ⟨h1, h2, h3⟩ := asks_shown hw (page_view : View _ _ _ (reverseQueryAsksSortedByPrice s c i st l))
    exact ⟨h1, Nat.le_trans h2 (Nat.le_of_eq (pageSize_eq l)), fun a ha => ⟨⟨by simpa using (h3 a ha).1.1, showAsk_iff (h3 a ha).1.2⟩, (h3 a ha).2⟩⟩
  case asksBySeller c i st l =>
    simp only [query, bind_ok, addrValidate_ok] at h
    obtain ⟨_, ⟨-, rfl⟩, _, -, h⟩ := h
    cases h
    obtain ⟨h1, h2, h3⟩ := asks_shown hw (page_view : View _ _ _ (queryAsksBySeller s c i st l))
    exact ⟨h1, Nat.le_trans h2 (Nat.le_of_eq (pageSize_eq l)), fun a ha => ⟨⟨by simpa using (h3 a ha).1.1, showAsk_iff (h3 a ha).1.2⟩, (h3 a ha).2⟩⟩
  case ask c t =>
    simp only [query, bind_ok, addrValidate_ok] at h
    obtain ⟨_, ⟨-, rfl⟩, h⟩ := h
    cases h
    show (queryAsk s c t).toList.Nodup ∧ _
    cases hq : queryAsk s c t with
    | none => exact ⟨List.nodup_nil, Nat.zero_le _, fun a ha => nomatch ha⟩
    | some a =>
      obtain ⟨-, h1, h2⟩ := ((C72_lookup hr).1 c t a).mp hq
      refine ⟨List.nodup_cons.mpr ⟨by simp, List.nodup_nil⟩, one_le _ rfl, ?_⟩
      intro x hx
      have : x = a := by simpa [Answer.asksOf, hq] using hx
      subst this
      exact ⟨⟨h1, h2⟩, by rw [h1, h2]; exact hq⟩
  all_goals
    simp only [query, bind_ok] at h
    have : r.asksOf = [] := by
      first
      | (cases h; rfl)
      | (obtain ⟨_, _, h⟩ := h; cases h; rfl)
      | (obtain ⟨_, _, _, _, h⟩ := h; cases h; rfl)
    rw [this]
    exact ⟨List.nodup_nil, Nat.zero_le _, fun a ha => nomatch ha⟩

/-- The same for bids. -/
theorem C153_bids (hr : Reach p me s) {m : QueryMsg} {r : Answer} (h : query p s m = .ok r) :
    r.bidsOf.Nodup ∧ r.bidsOf.length ≤ pageSize (qLimit m) ∧
      ∀ b ∈ r.bidsOf, wantsBid m b ∧ queryBid s b.collection b.tokenId b.bidder = some b := by
  have hw := hr.wf
  cases m
  case bidsByBidder c st l =>
    simp only [query, bind_ok, addrValidate_ok] at h
    obtain ⟨_, ⟨-, rfl⟩, _, -, h⟩ := h
    cases h
    obtain ⟨h1, h2, h3⟩ := bids_shown hw (page_view : View _ _ _ (queryBidsByBidder s c st l))
    refine ⟨h1, Nat.le_trans h2 (Nat.le_of_eq (pageSize_eq l)), fun a ha => ⟨?_, (h3 a ha).2⟩⟩
    have := (h3 a ha).1
    simp only [decide_eq_true_eq] at this
    exact this
  case bidsByBidderSortedByExpiration c st l =>
    simp only [query, bind_ok, addrValidate_ok] at h
    obtain ⟨_, ⟨-, rfl⟩, _, -, h⟩ := h
    cases h
    obtain ⟨h1, h2, h3⟩ := bids_shown hw (page_view : View _ _ _ (queryBidsByBidderSortedByExpiry s c st l))
    refine ⟨h1, Nat.le_trans h2 (Nat.le_of_eq (pageSize_eq l)), fun a ha => ⟨?_, (h3 a ha).2⟩⟩
    have := (h3 a ha).1
    simp only [decide_eq_true_eq] at this
    exact this
  case bids c t st l =>
    simp only [query, bind_ok, addrValidate_ok] at h
    obtain ⟨_, ⟨-, rfl⟩, h⟩ := h
    cases h
    obtain ⟨h1, h2, h3⟩ := bids_shown hw (page_view : View _ _ _ (queryBids s c t st l))
    refine ⟨h1, Nat.le_trans h2 (Nat.le_of_eq (pageSize_eq l)), fun a ha => ⟨?_, (h3 a ha).2⟩⟩
    have := (h3 a ha).1
    simp only [decide_eq_true_eq] at this
    exact this
  case bidsSortedByPrice c st l =>
    simp only [query, bind_ok, addrValidate_ok] at h
    obtain ⟨_, ⟨-, rfl⟩, h⟩ := h
    cases h
    obtain ⟨h1, h2, h3⟩ := bids_shown hw (page_view : View _ _ _ (queryBidsSortedByPrice s c st l))
    refine ⟨h1, Nat.le_trans h2 (Nat.le_of_eq (pageSize_eq l)), fun a ha => ⟨?_, (h3 a ha).2⟩⟩
    have := (h3 a ha).1
    simp only [decide_eq_true_eq] at this
    exact this
  case reverseBidsSortedByPrice c st l =>
    simp only [query, bind_ok, addrValidate_ok] at h
    obtain ⟨_, ⟨-, rfl⟩, h⟩ := h
    cases h
    obtain ⟨h1, h2, h3⟩ := bids_shown hw (page_view : View _ _ _ (reverseQueryBidsSortedByPrice s c st l))
    refine ⟨h1, Nat.le_trans h2 (Nat.le_of_eq (pageSize_eq l)), fun a ha => ⟨?_, (h3 a ha).2⟩⟩
    have := (h3 a ha).1
    simp only [decide_eq_true_eq] at this
    exact this
  case bid c t x =>
    simp only [query, bind_ok, addrValidate_ok] at h
    obtain ⟨_, ⟨-, rfl⟩, _, ⟨-, rfl⟩, h⟩ := h
    cases h
    show (queryBid s c t x).toList.Nodup ∧ _
    cases hq : queryBid s c t x with
    | none => exact ⟨List.nodup_nil, Nat.zero_le _, fun a ha => nomatch ha⟩
    | some b =>
      obtain ⟨-, h1, h2, h3⟩ := ((C72_lookup hr).2.1 c t x b).mp hq
      refine ⟨List.nodup_cons.mpr ⟨by simp, List.nodup_nil⟩, one_le _ rfl, ?_⟩
      intro y hy
      have : y = b := by simpa [Answer.bidsOf, hq] using hy
      subst this
      exact ⟨⟨h1, h2, h3⟩, by rw [h1, h2, h3]; exact hq⟩
  all_goals
    simp only [query, bind_ok] at h
    have : r.bidsOf = [] := by
      first
      | (cases h; rfl)
      | (obtain ⟨_, _, h⟩ := h; cases h; rfl)
      | (obtain ⟨_, _, _, _, h⟩ := h; cases h; rfl)
    rw [this]
    exact ⟨List.nodup_nil, Nat.zero_le _, fun a ha => nomatch ha⟩

/-- The same for collection bids. -/
theorem C153_collection_bids (hr : Reach p me s) {m : QueryMsg} {r : Answer} (h : query p s m = .ok r) :
    r.cbidsOf.Nodup ∧ r.cbidsOf.length ≤ pageSize (qLimit m) ∧
      ∀ b ∈ r.cbidsOf, wantsCBid m b ∧ queryCollectionBid s b.collection b.bidder = some b := by
  have hw := hr.wf
  cases m
  case collectionBidsByBidder c st l =>
    simp only [query, bind_ok, addrValidate_ok] at h
    obtain ⟨_, ⟨-, rfl⟩, _, -, h⟩ := h
    cases h
    obtain ⟨h1, h2, h3⟩ := cbids_shown hw (page_view : View _ _ _ (queryCBidsByBidder s c st l))
    refine ⟨h1, Nat.le_trans h2 (Nat.le_of_eq (pageSize_eq l)), fun a ha => ⟨?_, (h3 a ha).2⟩⟩
    have := (h3 a ha).1
    simp only [decide_eq_true_eq] at this
    exact this
  case collectionBidsByBidderSortedByExpiration c st l =>
    simp only [query, bind_ok, addrValidate_ok] at h
    obtain ⟨_, ⟨-, rfl⟩, _, -, h⟩ := h
    cases h
    obtain ⟨h1, h2, h3⟩ := cbids_shown hw (page_view : View _ _ _ (queryCBidsByBidderSortedByExpiry s c st l))
    refine ⟨h1, Nat.le_trans h2 (Nat.le_of_eq (pageSize_eq l)), fun a ha => ⟨?_, (h3 a ha).2⟩⟩
    have := (h3 a ha).1
    simp only [decide_eq_true_eq] at this
    exact this
  case collectionBidsSortedByPrice c st l =>
    simp only [query, bind_ok, addrValidate_ok] at h
    obtain ⟨_, ⟨-, rfl⟩, _, -, h⟩ := h
    cases h
    obtain ⟨h1, h2, h3⟩ := cbids_shown hw (page_view : View _ _ _ (queryCBidsSortedByPrice s c st l))
    refine ⟨h1, Nat.le_trans h2 (Nat.le_of_eq (pageSize_eq l)), fun a ha => ⟨?_, (h3 a ha).2⟩⟩
    have := (h3 a ha).1
    simp only [decide_eq_true_eq] at this
    exact this
  case reverseCollectionBidsSortedByPrice c st l =>
    simp only [query, bind_ok, addrValidate_ok] at h
    obtain ⟨_, ⟨-, rfl⟩, _, -, h⟩ := h
    cases h
    obtain ⟨h1, h2, h3⟩ := cbids_shown hw (page_view : View _ _ _ (reverseQueryCBidsSortedByPrice s c st l))
    refine ⟨h1, Nat.le_trans h2 (Nat.le_of_eq (pageSize_eq l)), fun a ha => ⟨?_, (h3 a ha).2⟩⟩
    have := (h3 a ha).1
    simp only [decide_eq_true_eq] at this
    exact this
  case collectionBid c x =>
    simp only [query, bind_ok, addrValidate_ok] at h
    obtain ⟨_, ⟨-, rfl⟩, _, ⟨-, rfl⟩, h⟩ := h
    cases h
    show (queryCollectionBid s c x).toList.Nodup ∧ _
    cases hq : queryCollectionBid s c x with
    | none => exact ⟨List.nodup_nil, Nat.zero_le _, fun a ha => nomatch ha⟩
    | some b =>
      obtain ⟨-, h1, h2⟩ := ((C72_lookup hr).2.2 c x b).mp hq
      refine ⟨List.nodup_cons.mpr ⟨by simp, List.nodup_nil⟩, one_le _ rfl, ?_⟩
      intro y hy
      have : y = b := by simpa [Answer.cbidsOf, hq] using hy
      subst this
      exact ⟨⟨h1, h2⟩, by rw [h1, h2]; exact hq⟩
  all_goals
    simp only [query, bind_ok] at h
    have : r.cbidsOf = [] := by
      first
      | (cases h; rfl)
      | (obtain ⟨_, _, h⟩ := h; cases h; rfl)
      | (obtain ⟨_, _, _, _, h⟩ := h; cases h; rfl)
    rw [this]
    exact ⟨List.nodup_nil, Nat.zero_le _, fun a ha => nomatch ha⟩

example := C153_bids Sample.r6 (p := Sample.P) (m := .bids Sample.coll 1 none none) (r := .bids (queryBids Sample.s6 Sample.coll 1 none none)) rfl
example : ((queryBids Sample.s6 Sample.coll 1 none none).map Bid.price) = [70] := by decide +kernel

end Verif.V1

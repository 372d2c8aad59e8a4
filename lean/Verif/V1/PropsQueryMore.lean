/-
Further properties of the marketplace v1 queries: C67-C73.
-/
import Verif.V1.PropsQuery

namespace Verif.V1
open Verif Spec

variable {p : Params} {me : Addr}

namespace Sample
/-- bob and carol bid on token 1 of the collection, bob also on token 2 (with an earlier expiry) -/
def b1 : State := (run (ctx 1000) carol (us 80) (.setBid coll 1 (3000 * NSs) .fixedPrice none none) s4).1
def b2 : State := (run (ctx 1000) bob (us 55) (.setBid coll 2 (2500 * NSs) .fixedPrice none none) b1).1
def b3 : State := (run (ctx 1001) bob [] (.removeBid coll 1) b2).1
/-- carol has collection bids on two collections, the one on `free` expires later -/
def b4 : State := (run (ctx 1000) carol (us 50) (.setCollectionBid coll (2500 * NSs) none) b2).1
def b5 : State := (run (ctx 1000) carol (us 20) (.setCollectionBid free (3000 * NSs) none) b4).1
theorem rb1 : Reach P self b1 := next r4 (by decide +kernel) rfl (by decide)
theorem rb2 : Reach P self b2 := next rb1 (by decide +kernel) rfl (by decide)
theorem rb4 : Reach P self b4 := next rb2 (by decide +kernel) rfl (by decide)
theorem rb5 : Reach P self b5 := next rb4 (by decide +kernel) rfl (by decide)
def noBid : Bid := ⟨[], 0, [], 0, none, 0⟩
end Sample

/-! ### C67: bids of a token -/

/-- Full statement of C67: bids of a token are listed by bidder, and paging with the last bidder reaches all of them. -/
def C67_statement : Prop :=
  ∀ (p : Params) (me : Addr) (s : State), Reach p me s → ∀ (c : Addr) (tok : Nat) (limit : Option Nat),
    Paged (fun a b => dict a.bidder b.bidder) (fun o b => dict o b.bidder) Bid.bidder
      (fun b => (∃ k, s.bids.get? k = some b) ∧ b.collection = c ∧ b.tokenId = tok) (queryBids s c tok) none limit

/-- The first page is right. Missing: for collection addresses shorter than 256 bytes and a bidder whose first byte is not
zero, every page after a bidder is empty. -/
theorem C67_partial {s : State} (hr : Reach p me s) (c : Addr) (tok : Nat) (limit : Option Nat) :
    (∃ all : List Bid, (∀ b, b ∈ all ↔ (∃ k, s.bids.get? k = some b) ∧ b.collection = c ∧ b.tokenId = tok) ∧ all.Nodup ∧
      all.Pairwise (fun a b => dict a.bidder b.bidder) ∧ queryBids s c tok none limit = all.take (pageSize limit)) ∧
    ∀ (x : UInt8) (rest : Bytes), c.length < 256 → x ≠ 0 → queryBids s c tok (some (x :: rest)) limit = [] := by
  have hw := hr.wf
  have hk : ∀ e ∈ index s.bids (fun b => decide (b.collection = c ∧ b.tokenId = tok)) (fun k _ => bidPkRaw k),
      bidPkRaw (c, tok, e.2.bidder) = e.1 := by
    rintro ⟨k, v⟩ he
    obtain ⟨k', h1, h2, h3⟩ := mem_index.mp he
    have h4 := (hw.bids _ _ h1).key
    simp only [decide_eq_true_eq] at h2
    rw [← h3, ← h4, h2.1, h2.2]
  have hl : ∀ x y : Addr, later bLe false (bidPkRaw (c, tok, x)) (bidPkRaw (c, tok, y)) = true ↔ dict x y := by
    intro x y
    show ltK bLe _ _ = true ↔ _
    rw [← ltK_bLe]
    unfold ltK bidPkRaw
    rw [bLe_append, bLe_append, bLe_append, bLe_append]
  constructor
  · obtain ⟨all, h1, h2, h3, h4⟩ := paged_of' (start := none) (limit := limit) (V := Bid) (off := Bid.bidder) (desc := false)
      (f := fun _ => true) (mk := fun b => bidPkRaw (c, tok, b))
      (sel := fun b => (∃ k, s.bids.get? k = some b) ∧ b.collection = c ∧ b.tokenId = tok)
      (before := fun a b => dict a.bidder b.bidder) (after := fun o b => dict o b.bidder)
      (query := fun o l => page bLe (index s.bids (fun b => decide (b.collection = c ∧ b.tokenId = tok))
        (fun k _ => bidPkRaw k)) false (fun _ => true) (o.map (fun b => bidPkRaw (c, tok, b))) (querySize l))
      bytesLin
      (by
        apply index_nodup
        intro k v k' v' h1 h2 h3 h4 h5
        have h6 := (hw.bids _ _ h1).key
        have h7 := (hw.bids _ _ h3).key
        simp only [decide_eq_true_eq] at h2 h4
        rw [← h6, ← h7, h2.1, h2.2, h4.1, h4.2] at h5 ⊢
        unfold bidPkRaw at h5
        have h8 : v.bidder = v'.bidder := List.append_cancel_left (List.append_cancel_left h5)
        rw [h8])
      hk (fun _ => rfl) sel_iff (fun _ _ _ _ h => (hl _ _).mp h) (fun _ _ _ _ => hl _ _)
    refine ⟨all, ?_, h2, h3, ?_⟩
    · intro b
      rw [h1]
      exact ⟨fun h => h.1, fun h => ⟨h, fun o ho => by cases ho⟩⟩
    · have h5 := h4 1
      rw [Nat.one_mul] at h5
      rw [← h5]
      unfold pages
      split
      · rfl
      · simp [pages, queryBids]
  · intro x rest hc hx
    unfold queryBids page
    have h0 : scanFrom bLe (index s.bids (fun b => decide (b.collection = c ∧ b.tokenId = tok)) (fun k _ => bidPkRaw k)) false
        (some (x :: rest)) = [] := by
      rw [List.eq_nil_iff_forall_not_mem]
      intro e he
      unfold scanFrom at he
      simp only [Bool.false_eq_true, if_false, Option.map_some] at he
      rw [mem_scan] at he
      obtain ⟨h1, h2, _⟩ := he
      have h3 := hk e h1
      rw [← h3] at h2
      have h4 : bidPkRaw (c, tok, e.2.bidder) = 0 :: (be 1 c.length ++ c ++ (comp (be 4 tok) ++ e.2.bidder)) := by
        unfold bidPkRaw comp
        show UInt8.ofNat (c.length / 256 ^ 1) :: _ = _
        rw [Nat.div_eq_of_lt (by omega)]
        rfl
      have hx' : ¬ (0 : UInt8) = x := fun e => hx e.symm
      have hlt : (0 : UInt8) < x := by
        rw [u8_lt_iff]
        have : (0 : UInt8).toNat = 0 := rfl
        have h9 : ¬ x.toNat = (0 : UInt8).toNat := fun e => hx (u8_eq_iff.mpr e)
        omega
      rw [h4] at h2
      simp [okMin, bLe, hx', hlt] at h2
    rw [h0]; simp

theorem C67_violated : ¬ C67_statement := by
  intro h
  obtain ⟨all, h1, _, _, h4⟩ := h Sample.P Sample.self Sample.b1 Sample.rb1 Sample.coll 1 (some 1)
  have h5 := h4 2
  have h6 : (pages (queryBids Sample.b1 Sample.coll 1) Bid.bidder (some 1) 2 none).length = 1 := by decide +kernel
  rw [h5] at h6
  obtain ⟨x, hx⟩ : ∃ a, Sample.b1.bids.get? (Sample.coll, 1, Sample.bob) = some a ∧ a.bidder = Sample.bob ∧
      a.collection = Sample.coll ∧ a.tokenId = 1 :=
    ⟨(Sample.b1.bids.get? (Sample.coll, 1, Sample.bob)).getD Sample.noBid, by decide +kernel⟩
  obtain ⟨y, hy⟩ : ∃ a, Sample.b1.bids.get? (Sample.coll, 1, Sample.carol) = some a ∧ a.bidder = Sample.carol ∧
      a.collection = Sample.coll ∧ a.tokenId = 1 :=
    ⟨(Sample.b1.bids.get? (Sample.coll, 1, Sample.carol)).getD Sample.noBid, by decide +kernel⟩
  have hxa : x ∈ all := (h1 x).mpr ⟨⟨⟨_, hx.1⟩, hx.2.2⟩, fun o ho => by cases ho⟩
  have hya : y ∈ all := (h1 y).mpr ⟨⟨⟨_, hy.1⟩, hy.2.2⟩, fun o ho => by cases ho⟩
  have hne : x ≠ y := by
    intro e
    have : Sample.bob = Sample.carol := by rw [← hx.2.1, ← hy.2.1, e]
    exact absurd this (by decide)
  match all, h6, hxa, hya with
  | [], h6, _, _ => cases h6
  | [a], _, hxa, hya =>
    rw [List.mem_singleton] at hxa hya
    exact hne (hxa.trans hya.symm)
  | a :: b :: l, h6, _, _ =>
    have : (List.take (2 * pageSize (some 1)) (a :: b :: l)).length = 2 := rfl
    rw [this] at h6
    cases h6

example : (queryBids Sample.b1 Sample.coll 1 none none).map Bid.bidder = [Sample.bob, Sample.carol] ∧
    queryBids Sample.b1 Sample.coll 1 (some Sample.bob) none = [] := by decide +kernel

/-! ### C68: collections -/

/-- Full statement of C68. -/
def C68_statement : Prop :=
  ∀ (p : Params) (me : Addr) (s : State), Reach p me s → ∀ limit : Option Nat,
    Paged shortlex shortlex id (fun c => ∃ k a, s.asks.get? k = some a ∧ a.collection = c) (queryCollections s) none limit

theorem C68_violated : ¬ C68_statement := by
  intro h
  obtain ⟨all, _, h2, _, h4⟩ := h Sample.P Sample.self Sample.a1 Sample.ra1 none
  have h5 := h4 1
  have h6 : pages (queryCollections Sample.a1) id none 1 none = [Sample.coll, Sample.coll] := by decide +kernel
  rw [h6] at h5
  have h7 : (all.take (1 * pageSize none)).Nodup := h2.sublist (List.take_sublist _ _)
  rw [← h5] at h7
  exact absurd h7 (by decide)

theorem collections_last {c : Addr} {M : List (AskKey × Ask)} (hM : M.Pairwise (fun a b => ltK askPkLe a.1 b.1 = true)) {k : Nat}
    (hl : ((M.take k).map (fun e => e.1.1)).getLast? = some c) :
    (∀ e ∈ M, e.1.1 ∈ (M.take k).map (fun e => e.1.1) ∨ shortlex c e.1.1) ∧
    (∀ x ∈ (M.take k).map (fun e => e.1.1), x = c ∨ shortlex x c) := by
  rw [List.getLast?_map] at hl
  obtain ⟨x, hx, rfl⟩ := Option.map_eq_some_iff.mp hl
  obtain ⟨ys, hys⟩ := List.getLast?_eq_some_iff.mp hx
  have hsplit : M = ys ++ x :: M.drop k := by
    conv => lhs; rw [← List.take_append_drop k M, hys]
    simp
  constructor
  · intro e he
    rw [hsplit] at he hM
    rw [List.pairwise_append] at hM
    rcases List.mem_append.mp he with h | h
    · left
      rw [hys]
      exact List.mem_map.mpr ⟨e, List.mem_append_left _ h, rfl⟩
    · rcases List.mem_cons.mp h with h | h
      · left
        rw [hys, h]
        exact List.mem_map.mpr ⟨x, by simp, rfl⟩
      · have h1 := (List.pairwise_cons.mp hM.2.1).1 e h
        rw [ltK_ask] at h1
        rcases h1 with h1 | ⟨h1, _⟩
        · exact Or.inr h1
        · left
          rw [hys, ← h1]
          exact List.mem_map.mpr ⟨x, by simp, rfl⟩
  · intro y hy
    obtain ⟨e, he, rfl⟩ := List.mem_map.mp hy
    rw [hys] at he
    rcases List.mem_append.mp he with h | h
    · rw [hsplit, List.pairwise_append] at hM
      have h1 := hM.2.2 e h x (by simp)
      rw [ltK_ask] at h1
      rcases h1 with h1 | ⟨h1, _⟩
      · exact Or.inr h1
      · exact Or.inl h1
    · rw [List.mem_singleton] at h
      exact Or.inl (by rw [h])

/-- Rows of the collections query. -/
def collRows (s : State) (start : Option Addr) : List (AskKey × Ask) :=
  (scan askPkLe s.asks.l false none none).filter (fun e =>
    match start with
    | none => true
    | some c => ltK lenLe c e.1.1)

theorem collRows_sorted (s : State) (start : Option Addr) :
    (collRows s start).Pairwise (fun a b => ltK askPkLe a.1 b.1 = true) :=
  (scan_strict askPkLin.total askPkLin.trans askPkLin.anti s.asks.nd none none).filter _

theorem mem_collRows {s : State} {start : Option Addr} {e : AskKey × Ask} :
    e ∈ collRows s start ↔ s.asks.get? e.1 = some e.2 ∧ ∀ c, start = some c → shortlex c e.1.1 := by
  unfold collRows
  rw [List.mem_filter, mem_scan, ← AMap.mem_iff]
  cases start with
  | none => simp [okMin, okMax]
  | some c => simp [okMin, okMax, ltK_lenLe]

theorem shortlex_trans {a b c : Bytes} (h1 : shortlex a b) (h2 : shortlex b c) : shortlex a c := by
  rw [← ltK_lenLe] at *
  exact ltK_trans lenLin.trans h1 h2

theorem collPages {s : State} {limit : Option Nat} : ∀ (n : Nat) (start : Option Addr),
    (∀ x ∈ pages (queryCollections s) id limit n start, ∃ e ∈ collRows s start, e.1.1 = x) ∧
    (pages (queryCollections s) id limit n start).Pairwise (fun a b => a = b ∨ shortlex a b) ∧
    (0 < querySize limit → (collRows s start).length ≤ n →
      ∀ e ∈ collRows s start, e.1.1 ∈ pages (queryCollections s) id limit n start)
  | 0, start => by
    refine ⟨fun x hx => by simp [pages] at hx, by simp [pages], ?_⟩
    intro _ h e he
    rw [List.length_eq_zero_iff.mp (Nat.le_zero.mp h)] at he
    cases he
  | n + 1, start => by
    have hq : queryCollections s start limit = ((collRows s start).take (querySize limit)).map (fun e => e.1.1) := rfl
    have hsub : ∀ x ∈ queryCollections s start limit, ∃ e ∈ collRows s start, e.1.1 = x := by
      intro x hx
      rw [hq] at hx
      obtain ⟨e, he, rfl⟩ := List.mem_map.mp hx
      exact ⟨e, List.mem_of_mem_take he, rfl⟩
    have hsorted : (queryCollections s start limit).Pairwise (fun a b => a = b ∨ shortlex a b) := by
      rw [hq, List.pairwise_map]
      refine ((collRows_sorted s start).sublist (List.take_sublist _ _)).imp ?_
      intro a b h
      rw [ltK_ask] at h
      rcases h with h | ⟨h, _⟩
      · exact Or.inr h
      · exact Or.inl h
    unfold pages
    split
    case h_1 hnone =>
      refine ⟨hsub, hsorted, ?_⟩
      intro hk _ e he
      rw [List.getLast?_eq_none_iff, hq, List.map_eq_nil_iff, List.take_eq_nil_iff] at hnone
      rcases hnone with h | h
      · omega
      · rw [h] at he; cases he
    case h_2 c hc =>
      obtain ⟨ih1, ih2, ih3⟩ := collPages (s := s) (limit := limit) n (some c)
      rw [hq] at hc
      obtain ⟨hl1, hl2⟩ := collections_last (collRows_sorted s start) hc
      have hcmem : ∃ e ∈ collRows s start, e.1.1 = c := by
        have := List.mem_of_getLast? hc
        rw [← hq] at this
        exact hsub c this
      have hstep : ∀ e, e ∈ collRows s (some c) → e ∈ collRows s start := by
        intro e he
        rw [mem_collRows] at he ⊢
        refine ⟨he.1, ?_⟩
        intro d hd
        obtain ⟨e', he', h2⟩ := hcmem
        have h3 := (mem_collRows.mp he').2 d hd
        rw [h2] at h3
        exact shortlex_trans h3 (he.2 c rfl)
      refine ⟨?_, ?_, ?_⟩
      · intro x hx
        rcases List.mem_append.mp hx with h | h
        · exact hsub x h
        · obtain ⟨e, he, h2⟩ := ih1 x h
          exact ⟨e, hstep e he, h2⟩
      · rw [List.pairwise_append]
        refine ⟨hsorted, ih2, ?_⟩
        intro a ha b hb
        obtain ⟨e, he, rfl⟩ := ih1 b hb
        have h3 := (mem_collRows.mp he).2 c rfl
        rw [hq] at ha
        rcases hl2 a ha with h | h
        · right; rw [h]; exact h3
        · right; exact shortlex_trans h h3
      · intro hk hn e he
        rw [List.mem_append]
        rcases hl1 e he with h | h
        · left; rw [hq]; exact h
        · right
          have hlen : (collRows s (some c)).length < (collRows s start).length := by
            obtain ⟨e', he', h2⟩ := hcmem
            have hfil : collRows s (some c) = (collRows s start).filter (fun e => ltK lenLe c e.1.1) := by
              unfold collRows
              rw [List.filter_filter]
              apply List.filter_congr
              intro x hx
              cases hx2 : ltK lenLe c x.1.1
              · simpa using hx2
              · have hx3 : x ∈ collRows s (some c) := List.mem_filter.mpr ⟨hx, hx2⟩
                have := (List.mem_filter.mp (hstep x hx3)).2
                rw [this]; exact hx2
            rw [hfil]
            refine Nat.lt_of_le_of_ne (List.length_filter_le _ _) ?_
            intro heq
            rw [List.length_filter_eq_length_iff] at heq
            have := heq e' he'
            rw [h2, ltK_lenLe] at this
            exact shortlex_irrefl this
          refine ih3 hk (by omega) e (mem_collRows.mpr ⟨(mem_collRows.mp he).1, ?_⟩)
          intro d hd
          cases hd
          exact h

/-- Every listed collection has an ask and comes after the start, they are in order, and paging (with a page size above 0)
reaches every collection that has an ask. Missing: a collection is repeated, once per ask. -/
theorem C68_partial {s : State} (hr : Reach p me s) (start : Option Addr) (limit : Option Nat) :
    (∀ n, ∀ c ∈ pages (queryCollections s) id limit n start,
      (∃ k a, s.asks.get? k = some a ∧ a.collection = c) ∧ ∀ d, start = some d → shortlex d c) ∧
    (∀ n, (pages (queryCollections s) id limit n start).Pairwise (fun a b => a = b ∨ shortlex a b)) ∧
    (0 < pageSize limit → ∃ N, ∀ n, N ≤ n → ∀ k a, s.asks.get? k = some a →
      (∀ d, start = some d → shortlex d a.collection) → a.collection ∈ pages (queryCollections s) id limit n start) := by
  have hw := hr.wf
  have hkey : ∀ k a, s.asks.get? k = some a → k.1 = a.collection := by
    intro k a h
    rw [← (hw.asks _ _ h).key]
  refine ⟨?_, fun n => (collPages n start).2.1, ?_⟩
  · intro n c hc
    obtain ⟨e, he, rfl⟩ := (collPages n start).1 c hc
    obtain ⟨h1, h2⟩ := mem_collRows.mp he
    exact ⟨⟨e.1, e.2, h1, (hkey _ _ h1).symm⟩, h2⟩
  · intro hk
    refine ⟨(collRows s start).length, ?_⟩
    intro n hn k a ha hst
    rw [← pageSize_eq] at hk
    have := (collPages n start).2.2 hk hn (k, a) (mem_collRows.mpr ⟨ha, by rw [hkey _ _ ha]; exact hst⟩)
    rw [← hkey _ _ ha]; exact this

example : pages (queryCollections Sample.a4) id (some 2) 3 none = [Sample.free, Sample.coll] := by decide +kernel

/-! ### C69: orders of one account -/

/-- Asks of a seller, bids and collection bids of a bidder: sorted, complete, without duplicates, from the beginning or after
any offset. -/
theorem C69_by_account {s : State} (hr : Reach p me s) (x : Addr) (limit : Option Nat) :
    (∀ (incl : Option Bool) (start : Option (Addr × Nat)),
      Paged (fun a b => collTok (a.collection, a.tokenId) (b.collection, b.tokenId))
        (fun o a => collTok o (a.collection, a.tokenId)) (fun a => (a.collection, a.tokenId))
        (AskBy s x incl) (queryAsksBySeller s x incl) start limit) ∧
    (∀ start : Option (Addr × Nat),
      Paged (fun a b => collTok (a.collection, a.tokenId) (b.collection, b.tokenId))
        (fun o a => collTok o (a.collection, a.tokenId)) (fun a => (a.collection, a.tokenId))
        (BidBy s x) (queryBidsByBidder s x) start limit) ∧
    (∀ (start : Option (Addr × Nat)) (tok : Nat),
      Paged (fun a b => shortlex a.collection b.collection) (fun o a => shortlex o.1 a.collection)
        (fun a => (a.collection, tok)) (CBidBy s x) (queryCBidsByBidder s x) start limit) := by
  have hw := hr.wf
  refine ⟨fun incl start => ?_, fun start => ?_, fun start tok => ?_⟩
  · refine paged_of' (es := index s.asks (fun a => decide (a.seller = x)) (fun k _ => k)) (desc := false) (f := showAsk incl)
      (mk := fun o : Addr × Nat => (o.1, o.2)) askPkLin (index_nodup' id (fun _ _ => rfl)) ?_ (fun o => ?_) ?_ ?_ ?_
    · rintro ⟨k, v⟩ he
      obtain ⟨k', h1, _, h3⟩ := mem_index.mp he
      rw [← h3]; exact (hw.asks _ _ h1).key
    · cases o <;> rfl
    · intro v
      constructor
      · rintro ⟨⟨k, h1⟩, h2, h3⟩
        exact ⟨_, mem_index.mpr ⟨k, h1, by simpa using h2, rfl⟩, show_iff.mpr h3⟩
      · rintro ⟨_, h, h3⟩
        obtain ⟨k, h1, h2, _⟩ := mem_index.mp h
        exact ⟨⟨k, h1⟩, by simpa using h2, show_iff.mp h3⟩
    · exact fun a b _ _ h => (ltK_ask (a := (a.collection, a.tokenId)) (b := (b.collection, b.tokenId))).mp h
    · exact fun o b _ _ => ltK_ask (a := (o.1, o.2)) (b := (b.collection, b.tokenId))
  · have hl : ∀ a b : Addr × Nat, ltK bidPkLe (a.1, a.2, x) (b.1, b.2, x) = true ↔ collTok a b := by
      intro a b
      rw [ltK_bid]
      simp [dict_irrefl, collTok]
    refine paged_of' (es := index s.bids (fun b => decide (b.bidder = x)) (fun k _ => k)) (desc := false) (f := fun _ => true)
      (mk := fun o : Addr × Nat => (o.1, o.2, x)) bidPkLin
      (index_nodup' id (fun _ _ => rfl)) ?_ (fun o => rfl) sel_iff
      (fun a b _ _ h => (hl (a.collection, a.tokenId) (b.collection, b.tokenId)).mp h)
      (fun o b _ _ => hl o (b.collection, b.tokenId))
    rintro ⟨k, v⟩ he
    obtain ⟨k', h1, h2, h3⟩ := mem_index.mp he
    have h5 : v.bidder = x := by simpa using h2
    have h4 := (hw.bids _ _ h1).key
    rw [← h3, ← h4, h5]
  · have hl : ∀ a b : Addr, ltK cbidPkLe (a, x) (b, x) = true ↔ shortlex a b := by
      intro a b
      rw [ltK_cbid]
      simp [dict_irrefl]
    refine paged_of' (es := index s.cbids (fun b => decide (b.bidder = x)) (fun k _ => k)) (desc := false) (f := fun _ => true)
      (mk := fun o : Addr × Nat => (o.1, x)) cbidPkLin
      (index_nodup' id (fun _ _ => rfl)) ?_ (fun o => rfl) sel_iff ?_ ?_
    · rintro ⟨k, v⟩ he
      obtain ⟨k', h1, h2, h3⟩ := mem_index.mp he
      have h5 : v.bidder = x := by simpa using h2
      have h4 := (hw.cbids _ _ h1).key
      rw [← h3, ← h4, h5]
    · exact fun a b _ _ h => (hl a.collection b.collection).mp h
    · exact fun o b _ _ => hl o.1 b.collection

example : (queryBidsByBidder Sample.b2 Sample.bob (some (Sample.coll, 1)) none).map Bid.tokenId = [2] := by decide +kernel
example : (queryAsksBySeller Sample.a4 Sample.alice none none none).map (fun a => (a.collection, a.tokenId)) =
    [(Sample.free, 4), (Sample.coll, 0), (Sample.coll, 1), (Sample.coll, 2), (Sample.coll, 3)] := by decide +kernel

namespace Spec
/-- Bids of one bidder: by whole second of expiry, then collection, then token. -/
def bidSooner (a b : Bid) : Prop :=
  secs a.expiresAt < secs b.expiresAt ∨
    (secs a.expiresAt = secs b.expiresAt ∧ collTok (a.collection, a.tokenId) (b.collection, b.tokenId))
/-- Collection bids of one bidder: by whole second of expiry, then collection. -/
def cbidSooner (a b : CBid) : Prop :=
  secs a.expiresAt < secs b.expiresAt ∨ (secs a.expiresAt = secs b.expiresAt ∧ shortlex a.collection b.collection)
end Spec

/-- Bids and collection bids of a bidder by expiry: sorted, complete, without duplicates, from the beginning or after any bid
that is in the store. -/
theorem C69_by_expiry {s : State} (hr : Reach p me s) (x : Addr) (limit : Option Nat) :
    (∀ start : Option (Addr × Nat), (∀ o, start = some o → s.bids.get? (o.1, o.2, x) ≠ none) →
      Paged bidSooner (fun o b => ∃ c, s.bids.get? (o.1, o.2, x) = some c ∧ bidSooner c b) (fun a => (a.collection, a.tokenId))
        (BidBy s x) (queryBidsByBidderSortedByExpiry s x) start limit) ∧
    (∀ start : Option CBidOffset, (∀ o, start = some o → o.bidder = x ∧ s.cbids.get? (o.collection, x) ≠ none) →
      Paged cbidSooner (fun o b => ∃ c, s.cbids.get? (o.collection, x) = some c ∧ cbidSooner c b) cbidOffset
        (CBidBy s x) (queryCBidsByBidderSortedByExpiry s x) start limit) := by
  have hw := hr.wf
  refine ⟨fun start hst => ?_, fun start hst => ?_⟩
  · have hstored : ∀ e ∈ index s.bids (fun b => decide (b.bidder = x)) (fun k b => (seconds b.expiresAt, k)),
        s.bids.get? (e.2.collection, e.2.tokenId, x) = some e.2 ∧
        e.1 = (seconds e.2.expiresAt, (e.2.collection, e.2.tokenId, x)) := by
      rintro ⟨k, v⟩ he
      obtain ⟨k', h1, h2, h3⟩ := mem_index.mp he
      have h5 : v.bidder = x := by simpa using h2
      have h4 := (hw.bids _ _ h1).key
      rw [← h3]
      rw [← h4, h5] at h1 ⊢
      exact ⟨h1, rfl⟩
    have hl : ∀ a b : Bid, ltK (lexLe natLe bidPkLe) (seconds a.expiresAt, (a.collection, a.tokenId, x))
        (seconds b.expiresAt, (b.collection, b.tokenId, x)) = true ↔ bidSooner a b := by
      intro a b
      rw [ltK_lex natLin, ltK_nat, ltK_bid]
      simp [dict_irrefl, collTok, bidSooner, seconds_eq]
    have hsel : ∀ v, BidBy s x v → s.bids.get? (v.collection, v.tokenId, x) = some v := by
      rintro v ⟨⟨k, h1⟩, h2⟩
      have h4 := (hw.bids _ _ h1).key
      rw [← h4, h2] at h1
      exact h1
    refine paged_of (es := index s.bids (fun b => decide (b.bidder = x)) (fun k b => (seconds b.expiresAt, k))) (desc := false)
      (f := fun _ => true)
      (mk := fun o : Addr × Nat => (((s.bids.get? (o.1, o.2, x)).map (fun b => seconds b.expiresAt)).getD 0, (o.1, o.2, x)))
      (lexLin natLin bidPkLin) (index_nodup' Prod.snd (fun _ _ => rfl)) ?_ ?_ ?_ sel_iff ?_ ?_
    · intro e he _
      obtain ⟨h1, h2⟩ := hstored e he
      rw [h2, h1]; rfl
    · intro e he _
      obtain ⟨h1, h2⟩ := hstored e he
      unfold queryBidsByBidderSortedByExpiry queryBid
      simp only [Option.bind_some]
      rw [h1]; rfl
    · cases start with
      | none => rfl
      | some o =>
        obtain ⟨b, hb⟩ := Option.ne_none_iff_exists'.mp (hst o rfl)
        unfold queryBidsByBidderSortedByExpiry queryBid
        simp only [Option.bind_some, Option.map_some]
        rw [hb]; rfl
    · intro a b ha hb h
      simp only [hsel a ha, hsel b hb] at h
      exact (hl a b).mp h
    · intro o v ho hv
      obtain ⟨b, hb⟩ := Option.ne_none_iff_exists'.mp (hst o ho)
      have h4 := (hw.bids _ _ hb).key
      simp only [Prod.mk.injEq] at h4
      simp only [hsel v hv, hb]
      have h5 := hl b v
      rw [h4.1, h4.2.1] at h5
      refine Iff.trans h5 ⟨fun h => ⟨b, rfl, h⟩, ?_⟩
      rintro ⟨c, hc, h⟩
      cases hc
      exact h
  · have hstored : ∀ e ∈ index s.cbids (fun b => decide (b.bidder = x)) (fun k b => (seconds b.expiresAt, k)),
        e.2.bidder = x ∧ s.cbids.get? (e.2.collection, x) = some e.2 ∧
        e.1 = (seconds e.2.expiresAt, (e.2.collection, x)) := by
      rintro ⟨k, v⟩ he
      obtain ⟨k', h1, h2, h3⟩ := mem_index.mp he
      have h5 : v.bidder = x := by simpa using h2
      have h4 := (hw.cbids _ _ h1).key
      rw [← h3]
      rw [← h4, h5] at h1 ⊢
      exact ⟨rfl, h1, rfl⟩
    have hl : ∀ a b : CBid, ltK (lexLe natLe cbidPkLe) (seconds a.expiresAt, (a.collection, x))
        (seconds b.expiresAt, (b.collection, x)) = true ↔ cbidSooner a b := by
      intro a b
      rw [ltK_lex natLin, ltK_nat, ltK_cbid]
      simp [dict_irrefl, cbidSooner, seconds_eq]
    have hsel : ∀ v, CBidBy s x v → s.cbids.get? (v.collection, x) = some v := by
      rintro v ⟨⟨k, h1⟩, h2⟩
      have h4 := (hw.cbids _ _ h1).key
      rw [← h4, h2] at h1
      exact h1
    refine paged_of (es := index s.cbids (fun b => decide (b.bidder = x)) (fun k b => (seconds b.expiresAt, k))) (desc := false)
      (f := fun _ => true)
      (mk := fun o : CBidOffset =>
        (((s.cbids.get? (o.collection, x)).map (fun b => seconds b.expiresAt)).getD 0, (o.collection, x)))
      (lexLin natLin cbidPkLin) (index_nodup' Prod.snd (fun _ _ => rfl)) ?_ ?_ ?_ sel_iff ?_ ?_
    · intro e he _
      obtain ⟨_, h1, h2⟩ := hstored e he
      rw [h2]
      show (((s.cbids.get? (e.2.collection, x)).map _).getD 0, _) = _
      rw [h1]; rfl
    · intro e he _
      obtain ⟨h0, h1, h2⟩ := hstored e he
      unfold queryCBidsByBidderSortedByExpiry queryCollectionBid cbidOffset
      simp only [Option.bind_some, h0]
      rw [h1]; rfl
    · cases start with
      | none => rfl
      | some o =>
        obtain ⟨h0, h1⟩ := hst o rfl
        obtain ⟨b, hb⟩ := Option.ne_none_iff_exists'.mp h1
        unfold queryCBidsByBidderSortedByExpiry queryCollectionBid
        simp only [Option.bind_some, Option.map_some, h0]
        rw [hb]; rfl
    · intro a b ha hb h
      simp only [cbidOffset, hsel a ha, hsel b hb] at h
      exact (hl a b).mp h
    · intro o v ho hv
      obtain ⟨h0, h1⟩ := hst o ho
      obtain ⟨b, hb⟩ := Option.ne_none_iff_exists'.mp h1
      have h4 := (hw.cbids _ _ hb).key
      simp only [Prod.mk.injEq] at h4
      simp only [cbidOffset, hsel v hv, hb]
      have h5 := hl b v
      rw [h4.1] at h5
      refine Iff.trans h5 ⟨fun h => ⟨b, rfl, h⟩, ?_⟩
      rintro ⟨c, hc, h⟩
      cases hc
      exact h

example : (queryBidsByBidderSortedByExpiry Sample.b2 Sample.bob none none).map Bid.tokenId = [2, 1] ∧
    (queryBidsByBidderSortedByExpiry Sample.b2 Sample.bob (some (Sample.coll, 2)) none).map Bid.tokenId = [1] := by decide +kernel
example : (queryCBidsByBidderSortedByExpiry Sample.b5 Sample.carol none none).map CBid.collection = [Sample.coll, Sample.free] ∧
    (queryCBidsByBidder Sample.b5 Sample.carol none none).map CBid.collection = [Sample.free, Sample.coll] := by decide +kernel

/-! ### C70: paging by expiry while bids are removed -/

/-- Full statement of C70: after bid `b` was the last of a page and has been withdrawn, the page after it holds only bids that
come after `b`. -/
def C70_statement : Prop :=
  ∀ (p : Params) (me : Addr) (s s' : State) (b : Bid) (ctx : Ctx) (msgs : List Msg) (limit : Option Nat), Reach p me s →
    s.bids.get? (b.collection, b.tokenId, b.bidder) = some b →
    execute p ctx b.bidder [] (.removeBid b.collection b.tokenId) s = .ok (s', msgs) →
    ∀ v ∈ queryBidsByBidderSortedByExpiry s' b.bidder (some (b.collection, b.tokenId)) limit, bidSooner b v

theorem C70_violated : ¬ C70_statement := by
  intro h
  let b : Bid := (Sample.b2.bids.get? (Sample.coll, 1, Sample.bob)).getD Sample.noBid
  have hb : b.collection = Sample.coll ∧ b.tokenId = 1 ∧ b.bidder = Sample.bob ∧ secs b.expiresAt = 3000 := by decide +kernel
  have h1 := h Sample.P Sample.self Sample.b2 Sample.b3 b (Sample.ctx 1001) _ none Sample.rb2 (by decide +kernel)
    (Sample.run_eq (by decide +kernel))
  rw [hb.1, hb.2.1, hb.2.2.1] at h1
  let v : Bid := (Sample.b3.bids.get? (Sample.coll, 2, Sample.bob)).getD Sample.noBid
  have hv : v ∈ queryBidsByBidderSortedByExpiry Sample.b3 Sample.bob (some (Sample.coll, 1)) none := by decide +kernel
  have hv2 : secs v.expiresAt = 2500 := by decide +kernel
  have h2 := h1 v hv
  unfold bidSooner at h2
  rw [hb.2.2.2, hv2] at h2
  omega

/-- If the offset bid is in the store, the page holds only bids after it. Missing: if it is not, the query answers with the
first page. -/
theorem C70_partial {s : State} (hr : Reach p me s) (x : Addr) (o : Addr × Nat) (limit : Option Nat) :
    (∀ b, s.bids.get? (o.1, o.2, x) = some b →
      ∀ v ∈ queryBidsByBidderSortedByExpiry s x (some o) limit, bidSooner b v) ∧
    (s.bids.get? (o.1, o.2, x) = none →
      queryBidsByBidderSortedByExpiry s x (some o) limit = queryBidsByBidderSortedByExpiry s x none limit) := by
  constructor
  · intro b hb v hv
    obtain ⟨all, h1, _, _, h4⟩ := (C69_by_expiry hr x limit).1 (some o) (by intro o' h; cases h; rw [hb]; simp)
    have h5 : v ∈ all := by
      have h6 : v ∈ pages (queryBidsByBidderSortedByExpiry s x) (fun a => (a.collection, a.tokenId)) limit 1 (some o) := by
        unfold pages
        split
        · exact hv
        · exact List.mem_append_left _ hv
      rw [h4] at h6
      exact List.mem_of_mem_take h6
    obtain ⟨c, hc, h7⟩ := ((h1 v).mp h5).2 o rfl
    rw [hb] at hc
    cases hc
    exact h7
  · intro hn
    unfold queryBidsByBidderSortedByExpiry queryBid
    simp only [Option.bind_some, hn, Option.map_none, Option.bind_none]

example : (queryBidsByBidderSortedByExpiry Sample.b3 Sample.bob (some (Sample.coll, 1)) none).map Bid.tokenId = [2] := by
  decide +kernel

/-! ### C71, C72: counts and lookups -/

/-- AskCount is the number of asks of the collection, active or not (as long as it fits 32 bits). -/
theorem C71_ask_count {s : State} (hr : Reach p me s) (c : Addr) :
    ∃ all : List Ask, all.Nodup ∧ (∀ a, a ∈ all ↔ AskOf s c (some true) a) ∧
      (all.length < 2 ^ 32 → queryAskCount s c = all.length) := by
  have hw := hr.wf
  refine ⟨(index s.asks (fun a => decide (a.collection = c)) (fun k _ => k)).map Prod.snd, ?_, ?_, ?_⟩
  · have h := index_nodup' (m := s.asks) (sel := fun a => decide (a.collection = c)) (key := fun k _ => k) id (fun _ _ => rfl)
    rw [List.Nodup, List.pairwise_map] at h ⊢
    refine List.Pairwise.imp_of_mem ?_ h
    intro a b h1 h2 h3 h4
    apply h3
    rw [← askKey hw h1, ← askKey hw h2, h4]
  · intro a
    rw [askOf_iff (key := fun k _ => k) a, List.mem_map]
    constructor
    · rintro ⟨e, he, rfl⟩
      exact ⟨e.1, he, rfl⟩
    · rintro ⟨k, hk, _⟩
      exact ⟨(k, a), hk, rfl⟩
  · intro h
    rw [List.length_map] at h ⊢
    exact Nat.mod_eq_of_lt h

example : queryAskCount Sample.a4 Sample.coll = 4 ∧ queryAskCount Sample.a4 Sample.free = 1 := by decide +kernel

/-- Ask, Bid and CollectionBid return exactly the stored order with that key. -/
theorem C72_lookup {s : State} (hr : Reach p me s) :
    (∀ c tok a, queryAsk s c tok = some a ↔ (∃ k, s.asks.get? k = some a) ∧ a.collection = c ∧ a.tokenId = tok) ∧
    (∀ c tok x b, queryBid s c tok x = some b ↔
      (∃ k, s.bids.get? k = some b) ∧ b.collection = c ∧ b.tokenId = tok ∧ b.bidder = x) ∧
    (∀ c x b, queryCollectionBid s c x = some b ↔ (∃ k, s.cbids.get? k = some b) ∧ b.collection = c ∧ b.bidder = x) := by
  have hw := hr.wf
  refine ⟨fun c tok a => ⟨fun h => ?_, ?_⟩, fun c tok x b => ⟨fun h => ?_, ?_⟩, fun c x b => ⟨fun h => ?_, ?_⟩⟩
  · have h1 := (hw.asks _ _ h).key
    simp only [Prod.mk.injEq] at h1
    exact ⟨⟨_, h⟩, h1⟩
  · rintro ⟨⟨k, h⟩, rfl, rfl⟩
    have h1 := (hw.asks _ _ h).key
    unfold queryAsk; rw [h1]; exact h
  · have h1 := (hw.bids _ _ h).key
    simp only [Prod.mk.injEq] at h1
    exact ⟨⟨_, h⟩, h1⟩
  · rintro ⟨⟨k, h⟩, rfl, rfl, rfl⟩
    have h1 := (hw.bids _ _ h).key
    unfold queryBid; rw [h1]; exact h
  · have h1 := (hw.cbids _ _ h).key
    simp only [Prod.mk.injEq] at h1
    exact ⟨⟨_, h⟩, h1⟩
  · rintro ⟨⟨k, h⟩, rfl, rfl⟩
    have h1 := (hw.cbids _ _ h).key
    unfold queryCollectionBid; rw [h1]; exact h

example : (queryAsk Sample.a4 Sample.coll 3).map Ask.price = some 30 ∧ queryAsk Sample.a4 Sample.free 3 = none := by decide +kernel

/-! ### C73: order of encoded keys -/

namespace Spec
/-- Bytes of index keys below their prefix: cw-storage-plus encoding of primary keys, alone or after a price or a second. -/
def rawAsk (k : AskKey) : Bytes := comp k.1 ++ be 4 k.2
def rawBid (k : BidKey) : Bytes := comp k.1 ++ (comp (be 4 k.2.1) ++ k.2.2)
def rawCBid (k : CBidKey) : Bytes := comp k.1 ++ k.2
def rawPrice (price : Nat) (pk : Bytes) : Bytes := comp (be 16 price) ++ pk
def rawSecs (secs : Nat) (pk : Bytes) : Bytes := comp (be 8 secs) ++ pk
end Spec

theorem rawAsk_le {a b : AskKey} (ha : a.1.length < 65536) (hb : b.1.length < 65536) (hta : a.2 < 2 ^ 32) (htb : b.2 < 2 ^ 32) :
    bLe (rawAsk a) (rawAsk b) = askPkLe a b := by
  unfold rawAsk askPkLe
  rw [bLe_comp _ _ ha hb]
  exact lexLe_congr (bLe_be hta htb)

theorem rawBid_le {a b : BidKey} (ha : a.1.length < 65536) (hb : b.1.length < 65536) (hta : a.2.1 < 2 ^ 32)
    (htb : b.2.1 < 2 ^ 32) : bLe (rawBid a) (rawBid b) = bidPkLe a b := by
  unfold rawBid bidPkLe
  rw [bLe_comp _ _ ha hb]
  exact lexLe_congr (bLe_compBe _ _ hta htb)

theorem rawCBid_le {a b : CBidKey} (ha : a.1.length < 65536) (hb : b.1.length < 65536) :
    bLe (rawCBid a) (rawCBid b) = cbidPkLe a b := by
  unfold rawCBid cbidPkLe
  rw [bLe_comp _ _ ha hb]

/-- The byte order of encoded index keys, in which the store iterates, is the order of their components that the query model
uses: for addresses below 65536 bytes, `u32` tokens, `u128` prices and `u64` seconds. -/
theorem C73_key_order :
    (∀ a b : AskKey, a.1.length < 65536 → b.1.length < 65536 → a.2 < 2 ^ 32 → b.2 < 2 ^ 32 →
      bLe (rawAsk a) (rawAsk b) = askPkLe a b ∧
      ∀ x y, x < 2 ^ 128 → y < 2 ^ 128 →
        bLe (rawPrice x (rawAsk a)) (rawPrice y (rawAsk b)) = lexLe natLe askPkLe (x, a) (y, b)) ∧
    (∀ a b : BidKey, a.1.length < 65536 → b.1.length < 65536 → a.2.1 < 2 ^ 32 → b.2.1 < 2 ^ 32 →
      bLe (rawBid a) (rawBid b) = bidPkLe a b ∧ rawBid a = bidPkRaw a ∧
      (∀ x y, x < 2 ^ 128 → y < 2 ^ 128 →
        bLe (rawPrice x (rawBid a)) (rawPrice y (rawBid b)) = lexLe natLe bidPkLe (x, a) (y, b)) ∧
      ∀ x y, x < 2 ^ 64 → y < 2 ^ 64 →
        bLe (rawSecs x (rawBid a)) (rawSecs y (rawBid b)) = lexLe natLe bidPkLe (x, a) (y, b)) ∧
    (∀ a b : CBidKey, a.1.length < 65536 → b.1.length < 65536 →
      bLe (rawCBid a) (rawCBid b) = cbidPkLe a b ∧
      (∀ x y, x < 2 ^ 128 → y < 2 ^ 128 →
        bLe (rawPrice x (rawCBid a)) (rawPrice y (rawCBid b)) = lexLe natLe cbidPkLe (x, a) (y, b)) ∧
      ∀ x y, x < 2 ^ 64 → y < 2 ^ 64 →
        bLe (rawSecs x (rawCBid a)) (rawSecs y (rawCBid b)) = lexLe natLe cbidPkLe (x, a) (y, b)) := by
  refine ⟨fun a b ha hb hta htb => ⟨rawAsk_le ha hb hta htb, fun x y hx hy => ?_⟩,
    fun a b ha hb hta htb => ⟨rawBid_le ha hb hta htb, rfl, fun x y hx hy => ?_, fun x y hx hy => ?_⟩,
    fun a b ha hb => ⟨rawCBid_le ha hb, fun x y hx hy => ?_, fun x y hx hy => ?_⟩⟩
  · exact (bLe_compBe _ _ (by simpa using hx) (by simpa using hy)).trans (lexLe_congr (rawAsk_le ha hb hta htb))
  · exact (bLe_compBe _ _ (by simpa using hx) (by simpa using hy)).trans (lexLe_congr (rawBid_le ha hb hta htb))
  · exact (bLe_compBe _ _ (by simpa using hx) (by simpa using hy)).trans (lexLe_congr (rawBid_le ha hb hta htb))
  · exact (bLe_compBe _ _ (by simpa using hx) (by simpa using hy)).trans (lexLe_congr (rawCBid_le ha hb))
  · exact (bLe_compBe _ _ (by simpa using hx) (by simpa using hy)).trans (lexLe_congr (rawCBid_le ha hb))

/-- token 256 comes after token 3, and the shorter collection first -/
example : rawAsk ([9, 9], 3) = [0, 2, 9, 9, 0, 0, 0, 3] ∧ bLe (rawAsk ([9, 9], 3)) (rawAsk ([9, 9], 256)) = true ∧
    bLe (rawAsk ([9, 9], 3)) (rawAsk ([1, 1, 1], 2)) = true := by decide +kernel

end Verif.V1

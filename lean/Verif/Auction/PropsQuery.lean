/-
Properties of the reserve auction queries: C83, C84, C85.
-/
import Verif.Auction.Query
import Verif.Auction.LifeLemmas
import Verif.Auction.Sample

namespace Verif.Auction
open Verif Spec

/-! ### Specification -/

namespace Spec

/-- An auction stored in `s`. -/
def InBook (s : State) (a : Auction) : Prop := ∃ k, s.auctions.get? k = some a

/-- (collection, token): shorter collection addresses first. -/
def keyBefore (a b : Key) : Prop := shortlex a.1 b.1 ∨ (a.1 = b.1 ∧ dict a.2 b.2)

/-- What a client passes to continue after an auction. -/
def keyOff (a : Auction) : Key := (a.collection, a.tokenId)

/-- `a` before `b` if ascending, after it if descending. -/
def ordered {A : Type} (lt : A → A → Prop) (desc : Bool) (a b : A) : Prop := if desc then lt b a else lt a b

/-- End in seconds, if the auction has started. -/
def endSec (a : Auction) : Nat := match a.endTime with | some e => sec e | none => 0

/-- (end second, key). -/
def endBefore (a b : Nat × Key) : Prop := a.1 < b.1 ∨ (a.1 = b.1 ∧ keyBefore a.2 b.2)

/-- What a client passes to continue after an auction listed by end time: the second in which it ends and its key. -/
def endOff (a : Auction) : Nat × Option Key := (endSec a, some (keyOff a))

/-- Where a listing by end time starts: ascending with the given second included, descending with it excluded; with a key,
strictly after that key. -/
def endAfter (desc : Bool) : Nat × Option Key → Auction → Prop
  | (t, none), a => if desc then endSec a < t else t ≤ endSec a
  | (t, some k), a => ordered endBefore desc (t, k) (endSec a, keyOff a)

end Spec

variable {p : Params} {me : Addr}

theorem keyLin : Lin keyLe := lexLin lenLin bytesLin

theorem ltK_key {a b : Key} : ltK keyLe a b = true ↔ keyBefore a b := by
  unfold keyLe keyBefore
  rw [ltK_lex lenLin, ltK_lenLe, ltK_bLe]

theorem later_key {desc : Bool} {a b : Key} : later keyLe desc a b = true ↔ ordered keyBefore desc a b := by
  unfold later ordered
  cases desc <;> exact ltK_key

theorem endLin : Lin (lexLe natLe keyLe) := lexLin natLin keyLin

theorem ltK_end {a b : Nat × Key} : ltK (lexLe natLe keyLe) a b = true ↔ endBefore a b := by
  rw [ltK_lex natLin, ltK_nat, ltK_key]; rfl

theorem later_end {desc : Bool} {a b : Nat × Key} : later (lexLe natLe keyLe) desc a b = true ↔ ordered endBefore desc a b := by
  unfold later ordered
  cases desc <;> exact ltK_end

/-! ### C83: single auctions, auctions of a seller, minimum prices -/

/-- Paging through the auctions of a seller yields all of them, once, in the order of their keys. -/
theorem C83_by_seller {s : State} (hr : Reach p me s) (seller : Addr) (desc : Bool) (start : Option Key) (limit : Option Nat) :
    Paged (fun a b => ordered keyBefore desc (keyOff a) (keyOff b)) (fun o a => ordered keyBefore desc o (keyOff a)) keyOff
      (fun a => InBook s a ∧ a.seller = seller) (queryAuctionsBySeller s seller desc) start limit := by
  refine paged_of' (mk := id) (f := fun _ => true)
    (es := index s.auctions (fun a => decide (a.seller = seller)) (fun k _ => k)) keyLin (index_nodup' id (fun _ _ => rfl)) ?_ (fun o => ?_) ?_ (fun _ _ _ _ h => later_key.mp h)
    (fun _ _ _ _ => later_key)
  · rintro ⟨k, v⟩ he
    obtain ⟨k', h1, h2, h3⟩ := mem_index.mp he
    show keyOff v = k
    rw [← h3]; exact (hr.wf.auctions _ _ h1).key
  · cases o <;> rfl
  · intro v
    constructor
    · rintro ⟨⟨k, h1⟩, h2⟩
      exact ⟨_, mem_index.mpr ⟨k, h1, by simpa using h2, rfl⟩, rfl⟩
    · rintro ⟨_, h, _⟩
      obtain ⟨k, h1, h2, _⟩ := mem_index.mp h
      exact ⟨⟨k, h1⟩, by simpa using h2⟩

/-- Paging through the minimum prices yields all of them, once, in the order of denoms. -/
theorem C83_min_prices (s : State) (desc : Bool) (start : Option Denom) (limit : Option Nat) :
    Paged (fun a b => ordered dict desc a.denom b.denom) (fun o c => ordered dict desc o c.denom) Coin.denom
      (fun c => s.minReserve.get? c.denom = some c.amount) (queryMinReservePrices s desc) start limit := by
  have hl : ∀ {a b : Denom}, later bLe desc a b = true ↔ ordered dict desc a b := by
    intro a b
    unfold later ordered
    cases desc <;> exact ltK_bLe
  refine paged_of' (mk := id) (f := fun _ => true) (es := s.minReserve.l.map (fun e => (e.1, (⟨e.1, e.2⟩ : Coin)))) bytesLin ?_ ?_
    (fun o => ?_) ?_ (fun _ _ _ _ h => hl.mp h) (fun _ _ _ _ => hl)
  · rw [List.map_map]
    exact s.minReserve.nd
  · intro e he
    obtain ⟨x, _, rfl⟩ := List.mem_map.mp he
    rfl
  · cases o <;> rfl
  · intro v
    constructor
    · intro h
      exact ⟨v.denom, List.mem_map.mpr ⟨_, AMap.mem_iff.mpr h, rfl⟩, rfl⟩
    · rintro ⟨k, h, _⟩
      obtain ⟨x, hx, e⟩ := List.mem_map.mp h
      cases e
      exact AMap.mem_iff.mp hx

/-- A single auction, the configuration and the record of halts are reported as stored; a reported auction is for the
token asked for. -/
theorem C83_single {s : State} (hr : Reach p me s) (coll : Addr) (tok : Bytes) :
    queryAuction s coll tok = s.auctions.get? (coll, tok) ∧
    (∀ a, queryAuction s coll tok = some a → a.collection = coll ∧ a.tokenId = tok) ∧
    queryConfig s = s.config ∧ queryHaltManager s = (s.prevBlock, s.windows) := by
  refine ⟨rfl, ?_, rfl, rfl⟩
  intro a ha
  have := (hr.wf.auctions _ _ ha).key
  unfold Auction.key at this
  cases this
  exact ⟨rfl, rfl⟩

/-! ### C84: auctions by end time -/

theorem endKey_some {a : Auction} {e : Nat} (h : a.endTime = some e) : a.endKey = endSec a := by
  unfold Auction.endKey endSec; rw [h]; rfl

theorem endKey_lt {k : Key} {a : Auction} (hg : Good p me k a) : a.endKey < U64MAX ↔ a.endTime.isSome = true := by
  unfold Auction.endKey
  cases he : a.endTime with
  | none => simp
  | some e =>
    have h1 := hg.endMax e he
    have h2 : secs e ≤ U64MAX / NS := Nat.div_le_div_right h1
    have := U64_big
    simp only [Option.isSome_some, iff_true]
    omega

/-- Bounds of the ascending and of the descending query in terms of pages over started auctions. -/
theorem endTime_page {s : State} (hr : Reach p me s) (desc : Bool) {t : Nat} (k : Option Key) (limit : Option Nat)
    (ht : desc = true → k.isSome = true → t < U64MAX) (hu : t ≤ U64MAX) :
    queryAuctionsByEndTime s t desc k limit = page (lexLe natLe keyLe) (endIndex s) desc (fun a => a.endTime.isSome)
      (some (t, k.getD ([], []))) (querySize limit) := by
  unfold queryAuctionsByEndTime page scanFrom
  have hmem : ∀ e ∈ endIndex s, ∃ k, s.auctions.get? k = some e.2 ∧ (e.2.endKey, k) = e.1 := by
    rintro ⟨k, v⟩ he
    obtain ⟨k', h1, _, h3⟩ := mem_index.mp he
    exact ⟨k', h1, h3⟩
  cases desc with
  | true =>
    simp only [if_true, Option.map_some]
    congr 2
    symm
    rw [List.filter_eq_self]
    intro e he
    rw [mem_scan] at he
    obtain ⟨k', h1, h2⟩ := hmem e he.1
    rw [← endKey_lt (hr.wf.auctions _ _ h1)]
    have h3 : ltK (lexLe natLe keyLe) e.1 (t, k.getD ([], [])) = true := by simpa [okMax, ltK] using he.2.2
    rw [ltK_end, ← h2] at h3
    rcases h3 with h3 | ⟨h3, h4⟩
    · exact Nat.lt_of_lt_of_le h3 hu
    · cases k with
      | some k => rw [show e.2.endKey = t from h3]; exact ht rfl rfl
      | none =>
        exfalso
        rcases h4 with h4 | ⟨_, h4, h5⟩
        · rcases h4 with h4 | ⟨h4, h5, h6⟩
          · exact absurd h4 (by simp)
          · exact h6 (List.eq_nil_of_length_eq_zero (by simpa using h4))
        · simp only [Option.getD_none] at h4 h5
          cases hk : k'.2 with
          | nil => exact h5 hk
          | cons x l => rw [hk] at h4; simp [bLe] at h4
  | false =>
    simp only [Bool.false_eq_true, if_false, Option.map_some]
    congr 2
    unfold scan
    simp only [Bool.false_eq_true, if_false]
    rw [List.filter_filter]
    apply List.filter_congr
    intro e he
    rw [mem_sortBy] at he
    obtain ⟨k', h1, h2⟩ := hmem e he
    have h3 : okMax (lexLe natLe keyLe) (some (.excl (U64MAX, ([], [])))) e.1 = e.2.endTime.isSome := by
      rw [Bool.eq_iff_iff, ← endKey_lt (hr.wf.auctions _ _ h1)]
      show ltK (lexLe natLe keyLe) e.1 (U64MAX, ([], [])) = true ↔ _
      rw [ltK_end, ← h2]
      constructor
      · rintro (h | ⟨h, h4⟩)
        · exact h
        · exfalso
          rcases h4 with h4 | ⟨_, h4, h5⟩
          · rcases h4 with h4 | ⟨h4, h5, h6⟩
            · exact absurd h4 (by simp)
            · exact h6 (List.eq_nil_of_length_eq_zero (by simpa using h4))
          · cases hk : k'.2 with
            | nil => exact h5 hk
            | cons x l => simp only at h4; rw [hk] at h4; simp [bLe] at h4
      · exact Or.inl
    rw [h3, show okMax (lexLe natLe keyLe) none e.1 = true from rfl, Bool.and_true, Bool.and_comm]

/-- A client that pages with a fixed end time, passing the key of the last auction as `start_after`, as with the other
paged queries, gets all started auctions ending at or after (ascending) resp. before (descending) that second, once, in
the order of their ends. -/
def C84_statement : Prop :=
  ∀ (p : Params) (me : Addr) (s : State), p.valid [] = false → Reach p me s → ∀ (t : Nat) (desc : Bool) (limit : Option Nat), t < U64MAX →
    ∃ all : List Auction,
      (∀ a, a ∈ all ↔ InBook s a ∧ a.endTime ≠ none ∧ endAfter desc (t, none) a) ∧ all.Nodup ∧
      all.Pairwise (fun a b => ordered endBefore desc (endSec a, keyOff a) (endSec b, keyOff b)) ∧
      ∀ n, pages (queryAuctionsByEndTime s t desc) keyOff limit n none = all.take (n * pageSize limit)

/-- Part that holds: it does if the client also passes the second in which the last auction ends as the new end time. -/
theorem C84_partial {s : State} (hv : p.valid [] = false) (hr : Reach p me s) (t : Nat) (k : Option Key) (desc : Bool) (limit : Option Nat)
    (ht : t < 2^64) (hk : desc = true → k ≠ none → t < 2^64 - 1) :
    Paged (fun a b => ordered endBefore desc (endSec a, keyOff a) (endSec b, keyOff b)) (endAfter desc) endOff
      (fun a => InBook s a ∧ a.endTime ≠ none)
      (fun o limit => match o with
        | some (t, k) => queryAuctionsByEndTime s t desc k limit
        | none => []) (some (t, k)) limit := by
  have hkeys : ∀ e ∈ endIndex s, e.2.endTime.isSome = true → (endSec e.2, keyOff e.2) = e.1 := by
    rintro ⟨k, v⟩ he hs
    obtain ⟨k', h1, _, h3⟩ := mem_index.mp he
    obtain ⟨e, hs⟩ := Option.isSome_iff_exists.mp hs
    have h4 := (hr.wf.auctions _ _ h1).key
    rw [← h3, endKey_some hs]
    exact Prod.ext rfl h4
  refine paged_of (mk := fun (o : Nat × Option Key) => (o.1, o.2.getD ([], []))) (f := fun a => a.endTime.isSome) (es := endIndex s)
    (off := endOff) endLin ?_ hkeys ?_ ?_ ?_
    (fun _ _ _ _ h => later_end.mp h) ?_
  · exact index_nodup (fun k v k' v' _ _ _ _ h => congrArg Prod.snd h)
  · rintro ⟨k', v⟩ he hs
    obtain ⟨k1, h1, _, h3⟩ := mem_index.mp he
    have hg := hr.wf.auctions _ _ h1
    obtain ⟨e, hs'⟩ := Option.isSome_iff_exists.mp hs
    have h5 := (endKey_lt hg).mpr hs
    rw [endKey_some hs'] at h5
    exact endTime_page hr desc (some (keyOff v)) limit (fun _ _ => h5) (Nat.le_of_lt h5)
  · refine endTime_page hr desc k limit (fun h1 h2 => ?_) (Nat.le_of_lt_succ ht)
    exact hk h1 (by cases k <;> simp_all)
  · intro v
    constructor
    · rintro ⟨⟨k, h1⟩, h2⟩
      exact ⟨_, mem_index.mpr ⟨k, h1, rfl, rfl⟩, by cases hv : v.endTime <;> simp_all⟩
    · rintro ⟨_, h, h2⟩
      obtain ⟨k, h1, _, _⟩ := mem_index.mp h
      exact ⟨⟨k, h1⟩, by cases hv : v.endTime <;> simp_all⟩
  · rintro ⟨t', k'⟩ v ho ⟨⟨kv, h1⟩, h2⟩
    cases ho
    rw [later_end]
    cases k with
    | some k => exact Iff.rfl
    | none =>
      have hg := hr.wf.auctions _ _ h1
      unfold endAfter ordered
      show (if desc = true then endBefore (endSec v, keyOff v) (t, ([], [])) else endBefore (t, ([], [])) (endSec v, keyOff v)) ↔ _
      cases desc with
      | true =>
        simp only [if_true]
        constructor
        · rintro (h | ⟨h, h4⟩)
          · exact h
          · exfalso
            rcases h4 with h4 | ⟨h4, _⟩
            · rcases h4 with h4 | ⟨h4, _, h6⟩
              · exact absurd h4 (by simp)
              · exact h6 (List.eq_nil_of_length_eq_zero (by simpa using h4))
            · have := hg.valid
              rw [show v.collection = [] from h4, hv] at this
              cases this
        · exact Or.inl
      | false =>
        simp only [Bool.false_eq_true, if_false]
        constructor
        · rintro (h | ⟨h, _⟩)
          · exact Nat.le_of_lt h
          · exact Nat.le_of_eq h
        · intro h
          rcases Nat.lt_or_eq_of_le h with h | h
          · exact Or.inl h
          · refine Or.inr ⟨h, Or.inl (Or.inl ?_)⟩
            show 0 < v.collection.length
            cases hc : v.collection with
            | nil =>
              have := hg.valid
              rw [hc, hv] at this
              cases this
            | cons x l => simp

namespace Sample

/-- alice puts up two more tokens; carol bids on one of them: ends at 1050 s, before the first -/
def x1 : State := (run (ctx 1000000 (some alice)) alice [⟨ust, 5⟩] (.create coll [50] ⟨ust, 100⟩ 50 none) s3).1
def x2 : State := (run (ctx 1000000 (some alice)) alice [⟨ust, 5⟩] (.create evil [51] ⟨ust, 100⟩ 50 none) x1).1
def x3 : State := (run (ctx 1000000) carol [⟨ust, 100⟩] (.bid coll [50]) x2).1

theorem rx1 : Reach P self x1 := next r3 (by decide +kernel) rfl (by decide)
theorem rx2 : Reach P self x2 := next rx1 (by decide +kernel) rfl (by decide)
theorem rx3 : Reach P self x3 := next rx2 (by decide +kernel) rfl (by decide)

end Sample

example : (queryAuctionsBySeller Sample.x3 Sample.alice false none none).map keyOff =
      [(Sample.evil, [51]), (Sample.coll, [49]), (Sample.coll, [50])] ∧
    (queryAuctionsBySeller Sample.x3 Sample.alice true (some (Sample.coll, [50])) (some 1)).map keyOff = [(Sample.coll, [49])] ∧
    queryMinReservePrices Sample.x3 false none none = [⟨Sample.ust, 10⟩] := by decide +kernel

/-- Two auctions with bids. The second page of a client that keeps the end time starts again at the first auction; one that
passes the end of the last auction on continues. -/
example : (queryAuctionsByEndTime Sample.x3 0 false none (some 1)).map keyOff = [(Sample.coll, [50])] ∧
    (queryAuctionsByEndTime Sample.x3 0 false (some (Sample.coll, [50])) (some 1)).map keyOff = [(Sample.coll, [50])] ∧
    (queryAuctionsByEndTime Sample.x3 1050 false (some (Sample.coll, [50])) (some 1)).map keyOff = [(Sample.coll, [49])] ∧
    (queryAuctionsByEndTime Sample.x3 1060 true none none).map keyOff = [(Sample.coll, [50])] := by decide +kernel

/-- The code violates C84: the second page repeats the first one. -/
theorem C84_violated : ¬ C84_statement := by
  intro h
  obtain ⟨all, _, h2, _, h4⟩ := h Sample.P Sample.self Sample.x3 rfl Sample.rx3 0 false (some 1) (by decide)
  have h5 := h4 2
  have h6 : ¬ (pages (queryAuctionsByEndTime Sample.x3 0 false) keyOff (some 1) 2 none).Nodup := by decide +kernel
  rw [h5] at h6
  exact h6 (h2.sublist (List.take_sublist _ _))

/-! ### C85: order of encoded keys -/

namespace Spec
/-- Bytes of primary keys in cw-storage-plus: two length bytes, collection, token. -/
def rawKey (k : Key) : Bytes := comp k.1 ++ k.2
/-- Bytes of entries of the end time index below its namespace: length, eight bytes of seconds, primary key. -/
def rawEnd (t : Nat) (k : Key) : Bytes := comp (be 8 t) ++ rawKey k
end Spec

theorem rawKey_pkBytes (k : Key) : rawKey k = pkBytes k := by
  simp [rawKey, pkBytes, comp, be]

theorem rawKey_le {a b : Key} (ha : a.1.length < 65536) (hb : b.1.length < 65536) : bLe (rawKey a) (rawKey b) = keyLe a b :=
  bLe_comp _ _ ha hb

/-- The storage iterates in the order in which the queries list: keys as bytes are ordered as collection by length and bytes,
then token; with the end time first in its index. -/
theorem C85_key_order {a b : Key} (ha : a.1.length < 65536) (hb : b.1.length < 65536) :
    bLe (rawKey a) (rawKey b) = keyLe a b ∧ rawKey a = pkBytes a ∧
    ∀ x y, x < 2^64 → y < 2^64 → bLe (rawEnd x a) (rawEnd y b) = lexLe natLe keyLe (x, a) (y, b) ∧
      pkLe (x, pkBytes a) (y, pkBytes b) = lexLe natLe keyLe (x, a) (y, b) := by
  refine ⟨rawKey_le ha hb, rawKey_pkBytes a, fun x y hx hy => ⟨?_, ?_⟩⟩
  · exact (bLe_compBe _ _ (by simpa using hx) (by simpa using hy)).trans (lexLe_congr (rawKey_le ha hb))
  · rw [← rawKey_pkBytes, ← rawKey_pkBytes, ← lexLe_congr (la := natLe) (a := x) (a' := y) (rawKey_le ha hb)]
    unfold pkLe lexLe natLe
    by_cases h : x = y
    · simp [h]
    · simp only [if_neg h]
      simp [h]
      omega

example : rawEnd 258 ([9, 9], [7]) = [0, 8, 0, 0, 0, 0, 0, 0, 1, 2, 0, 2, 9, 9, 7] ∧
    bLe (rawEnd 255 ([9, 9], [7])) (rawEnd 256 ([9], [7])) = true := by decide +kernel

end Verif.Auction

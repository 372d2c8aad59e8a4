/-
Reserve auction: the query entry point (C152, C153).
-/
import Verif.Auction.Entry
import Verif.Auction.PropsQuery
import Verif.Base.View

namespace Verif.Auction
open Verif Spec

/-! ### Specification -/

namespace Spec

/-- The addresses a query is about. -/
def qAbout : QueryMsg → List Bytes
  | .auction c _ => [c]
  | .auctionsBySeller x _ => [x]
  | _ => []

/-- The addresses in the offset from which a listing is to go on. -/
def qOffsets : QueryMsg → List Bytes
  | .auctionsBySeller _ o | .auctionsByEndTime _ o => (o.bind (·.startAfter)).toList.map Prod.fst
  | _ => []

/-- The page size asked for. -/
def qLimit : QueryMsg → Option Nat
  | .auctionsBySeller _ o | .auctionsByEndTime _ o => o.bind (·.limit)
  | .minReservePrices o => o.bind (·.limit)
  | _ => none

/-- What a query for auctions asks for. The times of the end-time listing are seconds: from the given one on, or, descending, up to the
given one. -/
def wants : QueryMsg → Auction → Prop
  | .auction c t, a => a.collection = c ∧ a.tokenId = t
  | .auctionsBySeller x _, a => a.seller = x
  | .auctionsByEndTime e o, a =>
    if (o.bind (·.descending)).getD false then (∀ n, a.endTime = some n → n / 1000000000 ≤ e) ∧ (a.endTime = none → U64MAX ≤ e)
    else ∃ n, a.endTime = some n ∧ e ≤ n / 1000000000
  | _, _ => False

end Spec

/-- The auctions shown by an answer. -/
def Answer.auctionsOf : Answer → List Auction
  | .auction a => a.toList
  | .auctions l => l
  | _ => []

/-- The minimum reserve prices shown by an answer. -/
def Answer.coinsOf : Answer → List Coin
  | .coins l => l
  | _ => []

/-- A query is answered if and only if all addresses in it are valid. -/
def C152_statement : Prop :=
  ∀ (p : Params) (s : State) (m : QueryMsg), (∃ r, query p s m = .ok r) ↔ ∀ a ∈ qAbout m ++ qOffsets m, p.valid a = true

variable {p : Params} {me : Addr} {s : State}

/-- What holds: a query is answered if and only if the collection or seller it is about is a valid address. Missing: collections in
offsets are not looked at. -/
theorem C152_partial_iff {m : QueryMsg} : (∃ r, query p s m = .ok r) ↔ ∀ a ∈ qAbout m, p.valid a = true := by
  constructor
  · rintro ⟨r, h⟩
    cases m <;> simp only [qAbout, List.mem_cons, List.not_mem_nil, or_false, forall_eq, false_implies, implies_true] <;>
      (simp only [query, bind_ok, addrValidate_ok] at h
       obtain ⟨_, ⟨h1, _⟩, h⟩ := h
       exact h1)
  · intro h
    have hv : ∀ a ∈ qAbout m, addrValidate p a = .ok a := fun a ha => addrValidate_ok.mpr ⟨h a ha, rfl⟩
    cases m <;> simp only [qAbout, List.mem_cons, List.not_mem_nil, or_false, forall_eq] at hv <;>
      simp only [query, hv, ok_bind] <;> exact ⟨_, rfl⟩

/-- The listing of auctions by end time after something that is no collection is answered. -/
theorem C152_violated : ¬ C152_statement := by
  intro h
  have := (h Sample.P Sample.s3 (.auctionsByEndTime 0 (some { startAfter := some ([6, 6], [49]) }))).mp ⟨_, rfl⟩ [6, 6] (by decide)
  exact absurd this (by decide)

example : query Sample.P Sample.s3 (.auctionsBySeller [6, 6] none) = .error .std := rfl

theorem opts_limit {K : Type} (o : Option (Opts K)) : (o.getD {}).limit = o.bind (·.limit) := by cases o <;> rfl
theorem opts_desc {K : Type} (o : Option (Opts K)) : (o.getD {}).descending = o.bind (·.descending) := by cases o <;> rfl

theorem lim_le {K : Type} (o : Option (Opts K)) : querySize (o.getD {}).limit ≤ pageSize (o.bind (·.limit)) := by
  rw [opts_limit]
  exact Nat.le_of_eq (pageSize_eq _)

theorem shown (hw : WF p me s) {J : Type} {sel : Auction → Bool} {key : Key → Auction → J} {f : Auction → Bool} {n : Nat}
    {l : List Auction} (v : View (index s.auctions sel key) f n l) :
    l.Nodup ∧ l.length ≤ n ∧ ∀ a ∈ l, sel a = true ∧ queryAuction s a.collection a.tokenId = some a := by
  refine ⟨v.nodup (index_vals Auction.key (fun k a h => (hw.auctions k a h).key)), v.size, ?_⟩
  intro a ha
  obtain ⟨⟨j, hj⟩, -⟩ := v.mem a ha
  obtain ⟨k, hk, hs, _⟩ := mem_index.mp hj
  refine ⟨hs, ?_⟩
  have := (hw.auctions k a hk).key
  unfold queryAuction
  show s.auctions.get? a.key = _
  rw [this]
  exact hk

theorem lex_fst {x y : Nat × Key} (h : lexLe natLe keyLe x y = true) : x.1 ≤ y.1 := by
  unfold lexLe at h
  split at h
  · exact Nat.le_of_eq ‹_›
  · simpa [natLe] using h

/-- The auctions shown by the answer to any query are auctions as they are stored (the lookup by token gives the same), they
are what the query asks for, none is shown twice, and there are at most as many as asked for and at most the cap. -/
theorem C153_auctions (hr : Reach p me s) {m : QueryMsg} {r : Answer} (h : query p s m = .ok r) :
    r.auctionsOf.Nodup ∧ r.auctionsOf.length ≤ pageSize (qLimit m) ∧
      ∀ a ∈ r.auctionsOf, wants m a ∧ queryAuction s a.collection a.tokenId = some a := by
  have hw := hr.wf
  cases m
  case auction c t =>
    simp only [query, bind_ok, addrValidate_ok] at h
    obtain ⟨_, ⟨-, rfl⟩, h⟩ := h
    cases h
    show (queryAuction s c t).toList.Nodup ∧ _
    cases hq : queryAuction s c t with
    | none => exact ⟨List.nodup_nil, Nat.zero_le _, fun a ha => nomatch ha⟩
    | some a =>
      have hk : (a.collection, a.tokenId) = (c, t) := (hw.auctions _ a hq).key
      refine ⟨List.nodup_cons.mpr ⟨by simp, List.nodup_nil⟩, (by decide : 1 ≤ pageSize none), ?_⟩
      intro x hx
      have : x = a := by simpa [Answer.auctionsOf, hq] using hx
      subst this
      cases hk
      exact ⟨⟨rfl, rfl⟩, hq⟩
  case auctionsBySeller x o =>
    simp only [query, bind_ok, addrValidate_ok] at h
    obtain ⟨_, ⟨-, rfl⟩, h⟩ := h
    cases h
    obtain ⟨h1, h2, h3⟩ := shown hw
      (page_view : View _ _ _ (queryAuctionsBySeller s x ((o.getD {}).descending.getD false) (o.getD {}).startAfter (o.getD {}).limit))
    refine ⟨h1, Nat.le_trans h2 (lim_le o), fun a ha => ⟨?_, (h3 a ha).2⟩⟩
    have := (h3 a ha).1
    simp only [decide_eq_true_eq] at this
    exact this
  case auctionsByEndTime e o =>
    cases h
    show (queryAuctionsByEndTime s e ((o.getD {}).descending.getD false) (o.getD {}).startAfter (o.getD {}).limit).Nodup ∧
      (queryAuctionsByEndTime s e ((o.getD {}).descending.getD false) (o.getD {}).startAfter (o.getD {}).limit).length ≤ _ ∧
      ∀ a ∈ queryAuctionsByEndTime s e ((o.getD {}).descending.getD false) (o.getD {}).startAfter (o.getD {}).limit, _
    have hv : View (endIndex s) (fun _ => true) (querySize (o.getD {}).limit)
        (queryAuctionsByEndTime s e ((o.getD {}).descending.getD false) (o.getD {}).startAfter (o.getD {}).limit) := by
      unfold queryAuctionsByEndTime
      cases (o.getD {}).descending.getD false
      · simp only [Bool.false_eq_true, if_false]; exact take_view
      · simp only [if_true]; exact take_view
    obtain ⟨h1, h2, h3⟩ := shown hw hv
    refine ⟨h1, Nat.le_trans h2 (lim_le o), fun a ha => ⟨?_, (h3 a ha).2⟩⟩
    simp only [wants]
    rw [← opts_desc]
    unfold queryAuctionsByEndTime at ha
    obtain ⟨⟨⟨ek, k⟩, a'⟩, he, heq⟩ := List.mem_map.mp ha
    cases heq
    have he := List.mem_of_mem_take he
    generalize (o.getD {}).descending.getD false = b at he ⊢
    cases b with
    | true =>
      rw [if_pos rfl] at he
      rw [if_pos rfl]
      obtain ⟨hi, -, hm⟩ := mem_scan.mp he
      obtain ⟨k', hk', -, hek⟩ := mem_index.mp hi
      cases hek
      have hle : a'.endKey ≤ e := lex_fst (Bool.and_eq_true_iff.mp hm).1
      refine ⟨fun n hn => ?_, fun hn => ?_⟩
      · unfold Auction.endKey at hle
        rw [hn] at hle
        exact hle
      · unfold Auction.endKey at hle
        rw [hn] at hle
        exact hle
    | false =>
      rw [if_neg Bool.false_ne_true] at he
      rw [if_neg Bool.false_ne_true]
      obtain ⟨hi, hm, hx⟩ := mem_scan.mp he
      obtain ⟨k', hk', -, hek⟩ := mem_index.mp hi
      cases hek
      have hle : e ≤ a'.endKey := lex_fst (Bool.and_eq_true_iff.mp hm).1
      cases hn : a'.endTime with
      | some n =>
        unfold Auction.endKey at hle
        rw [hn] at hle
        exact ⟨n, rfl, hle⟩
      | none =>
        exfalso
        have h2 := (Bool.and_eq_true_iff.mp hx).2
        simp only [Auction.endKey, hn, lexLe, if_true, Bool.not_eq_true'] at h2
        revert h2
        obtain ⟨c, t⟩ := k
        cases c <;> cases t <;> simp [keyLe, lexLe, lenLe, bLe, natLe]
  all_goals
    cases h
    exact ⟨List.nodup_nil, Nat.zero_le _, fun a ha => nomatch ha⟩

/-- Minimum reserve prices shown are the ones set, one for each denom at most, within the same limits. -/
theorem C153_prices {m : QueryMsg} {r : Answer} (h : query p s m = .ok r) :
    (r.coinsOf.map Coin.denom).Nodup ∧ r.coinsOf.length ≤ pageSize (qLimit m) ∧
      ∀ c ∈ r.coinsOf, s.minReserve.get? c.denom = some c.amount := by
  cases m
  case minReservePrices o =>
    cases h
    have v : View _ _ _ (queryMinReservePrices s ((o.getD {}).descending.getD false) (o.getD {}).startAfter (o.getD {}).limit) := page_view
    have hs := v.size
    have hmem : ∀ c ∈ (queryMinReservePrices s ((o.getD {}).descending.getD false) (o.getD {}).startAfter (o.getD {}).limit),
        s.minReserve.get? c.denom = some c.amount := by
      intro c hc
      obtain ⟨⟨j, hj⟩, -⟩ := v.mem c hc
      obtain ⟨e, he, heq⟩ := List.mem_map.mp hj
      cases heq
      exact AMap.mem_iff.mp he
    refine ⟨?_, Nat.le_trans hs (lim_le o), hmem⟩
    have hnd : (queryMinReservePrices s ((o.getD {}).descending.getD false) (o.getD {}).startAfter (o.getD {}).limit).Nodup := by
      apply v.nodup
      rw [List.map_map, List.Nodup, List.pairwise_map]
      have hk := s.minReserve.nd
      rw [List.Nodup, List.pairwise_map] at hk
      exact hk.imp (fun hne heq => hne (congrArg Coin.denom heq))
    rw [List.Nodup, List.pairwise_map]
    refine List.Pairwise.imp_of_mem ?_ hnd
    intro c c' hc hc' hne heq
    apply hne
    have e1 := hmem c hc
    have e2 := hmem c' hc'
    rw [heq, e2] at e1
    cases c; cases c'
    simp only [Option.some.injEq] at e1 heq
    subst e1; subst heq; rfl
  all_goals
    simp only [query, bind_ok] at h
    have : r.coinsOf = [] := by
      first
      | (cases h; rfl)
      | (obtain ⟨_, _, h⟩ := h; cases h; rfl)
    rw [this]
    exact ⟨List.nodup_nil, Nat.zero_le _, fun a ha => nomatch ha⟩

example := C153_auctions Sample.r3 (m := .auctionsByEndTime 0 none) (r := .auctions (queryAuctionsByEndTime Sample.s3 0 false none none)) rfl
example : (queryAuctionsByEndTime Sample.s3 0 false none none).map Auction.key = [(Sample.coll, Sample.tok)] := by decide +kernel

end Verif.Auction

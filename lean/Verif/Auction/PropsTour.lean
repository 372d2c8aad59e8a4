/-
Reserve auction: paging through listings while auctions come and go (C154).
-/
import Verif.Auction.PropsQuery
import Verif.Base.Tour

namespace Verif.Auction
open Verif Spec

variable {p : Params} {me : Addr}

theorem later_trans {K : Type} {le : K → K → Bool} (h : Lin le) {lt : K → K → Prop} (hlt : ∀ a b, ltK le a b = true ↔ lt a b) {desc : Bool}
    (a b c : K) (h1 : ordered lt desc a b) (h2 : ordered lt desc b c) : ordered lt desc a c := by
  unfold ordered at *
  cases desc with
  | false =>
    simp only [Bool.false_eq_true, if_false, ← hlt] at *
    exact ltK_trans h.trans h1 h2
  | true =>
    simp only [if_true, ← hlt] at *
    exact ltK_trans h.trans h2 h1

/-- Auctions of a seller: paging while auctions are created, cancelled, bid on and settled. -/
theorem C154_by_seller {states : List State} (hr : ∀ s ∈ states, Reach p me s) (seller : Addr) (desc : Bool) (start : Option Key)
    (limit : Option Nat) :
    Toured (ordered keyBefore desc) keyOff (fun s a => InBook s a ∧ a.seller = seller) (pageSize limit)
      (fun s st => queryAuctionsBySeller s seller desc st limit) states start :=
  toured (later_trans keyLin (fun _ _ => ltK_key)) (fun s hs st => (C83_by_seller (hr s hs) seller desc st limit).page)

/-- Minimum reserve prices. -/
theorem C154_min_prices (states : List State) (desc : Bool) (start : Option Denom) (limit : Option Nat) :
    Toured (ordered dict desc) Coin.denom (fun s c => s.minReserve.get? c.denom = some c.amount) (pageSize limit)
      (fun s st => queryMinReservePrices s desc st limit) states start :=
  toured (later_trans bytesLin (fun _ _ => ltK_bLe)) (fun s _ st => (C83_min_prices s desc st limit).page)

/-- Started auctions by end time, by a client that passes on the second in which the last auction ends (see C84) and starts with an auction
key. An auction that is extended changes its place. -/
theorem C154_by_end {states : List State} (hv : p.valid [] = false) (hr : ∀ s ∈ states, Reach p me s) (desc : Bool) (t : Nat) (k : Key)
    (ht : t < 2^64 - 1) (limit : Option Nat) :
    Toured (ordered endBefore desc) (fun a => (endSec a, keyOff a)) (fun s a => InBook s a ∧ a.endTime ≠ none) (pageSize limit)
      (fun s st => match st with
        | some (t, k) => queryAuctionsByEndTime s t desc (some k) limit
        | none => []) states (some (t, k)) := by
  refine toured_on (fun st => ∃ t k, st = some (t, k) ∧ t < 2^64 - 1) (later_trans endLin (fun _ _ => ltK_end)) ⟨t, k, rfl, ht⟩ ?_ ?_
  · rintro s hs _ ⟨t, k, rfl, ht⟩
    obtain ⟨all, h1, -, h3, h4⟩ := C84_partial hv (hr s hs) t (some k) desc limit (by omega) (fun _ _ => ht)
    refine ⟨all, ?_, h3, ?_⟩
    · intro v
      rw [h1 v]
      simp only [Option.some.injEq, forall_eq']
      rfl
    · have := h4 1
      rw [Nat.one_mul] at this
      rw [← this, pages_one]
  · rintro s hs a ⟨⟨k, hk⟩, ha⟩
    refine ⟨_, _, rfl, ?_⟩
    have hg := (hr s hs).wf.auctions _ _ hk
    obtain ⟨e, he⟩ := Option.ne_none_iff_exists'.mp ha
    have := (endKey_lt hg).mpr (by rw [he]; rfl)
    rwa [endKey_some he] at this

namespace Sample

example := C154_by_seller (states := [s3, x1, x2, x3]) (by
  intro s hs
  simp only [List.mem_cons, List.not_mem_nil, or_false] at hs
  rcases hs with rfl | rfl | rfl | rfl
  · exact r3
  · exact rx1
  · exact rx2
  · exact rx3) alice false none (some 1)
example : (tour (fun s st => queryAuctionsBySeller s alice false st (some 1)) keyOff [s3, x1, x2, x3] none).map keyOff =
    [(coll, tok), (coll, [50])] := by decide +kernel
example : ends (fun s st => queryAuctionsBySeller s alice false st (some 2)) keyOff 2 [s3, x1] none := by
  refine .inl ?_
  decide +kernel

end Sample

end Verif.Auction

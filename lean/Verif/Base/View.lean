/-
What a page of a query can contain: entries of the index, no entry twice, no more than the limit.
-/
import Verif.Base.Listing

namespace Verif
variable {K J V : Type}

theorem scan_sub {le : K → K → Bool} {es : List (K × V)} {desc : Bool} {mn mx : Option (QBound K)} (hnd : (es.map Prod.snd).Nodup) :
    ((scan le es desc mn mx).map Prod.snd).Nodup := by
  have h : ((sortBy (fun a b => le a.1 b.1) es).map Prod.snd).Nodup := ((sortBy_perm es).map _).nodup_iff.mpr hnd
  have h2 := h.sublist (List.filter_sublist (p := fun e => okMin le mn e.1 && okMax le mx e.1).map Prod.snd)
  unfold scan
  cases desc with
  | false => exact h2
  | true =>
    show ((List.reverse _).map _).Nodup
    rw [List.map_reverse]
    exact (List.reverse_perm _).nodup_iff.mpr h2

/-- A list of values drawn from entries: each is the value of an entry that passes the filter, none occurs twice, at most `n`. -/
structure View (es : List (K × V)) (f : V → Bool) (n : Nat) (l : List V) : Prop where
  mem : ∀ v ∈ l, (∃ k, (k, v) ∈ es) ∧ f v = true
  nodup : (es.map Prod.snd).Nodup → l.Nodup
  size : l.length ≤ n

theorem scan_view {le : K → K → Bool} {es : List (K × V)} {desc : Bool} {mn mx : Option (QBound K)} {f : V → Bool} {n : Nat} :
    View es f n ((((scan le es desc mn mx).filter (fun e => f e.2)).take n).map Prod.snd) := by
  refine ⟨?_, ?_, ?_⟩
  · intro v hv
    obtain ⟨e, he, rfl⟩ := List.mem_map.mp hv
    have h := List.mem_filter.mp (List.mem_of_mem_take he)
    exact ⟨⟨e.1, (mem_scan.mp h.1).1⟩, h.2⟩
  · intro h
    exact (scan_sub h).sublist (((List.take_sublist _ _).trans List.filter_sublist).map _)
  · rw [List.length_map, List.length_take]
    exact Nat.min_le_left _ _

theorem page_view {le : K → K → Bool} {es : List (K × V)} {desc : Bool} {f : V → Bool} {start : Option K} {n : Nat} :
    View es f n (page le es desc f start n) := by
  unfold page scanFrom
  split <;> exact scan_view

theorem take_view {le : K → K → Bool} {es : List (K × V)} {desc : Bool} {mn mx : Option (QBound K)} {n : Nat} :
    View es (fun _ => true) n (((scan le es desc mn mx).take n).map Prod.snd) := by
  have := scan_view (le := le) (es := es) (desc := desc) (mn := mn) (mx := mx) (f := fun _ => true) (n := n)
  rwa [List.filter_eq_self.mpr (fun _ _ => rfl)] at this

theorem runQuery_view {le : K → K → Bool} {es : List (K × V)} {d m : Nat} {o : QOpts K} :
    View es (fun _ => true) (Nat.min (o.limit.getD d) m) (runQuery le d m es o) := take_view

/-- The values under an index are each there once, if the value determines its key. -/
theorem index_vals [DecidableEq K] {m : AMap K V} {sel : V → Bool} {key : K → V → J} (back : V → K)
    (hb : ∀ k v, m.get? k = some v → back v = k) : ((index m sel key).map Prod.snd).Nodup := by
  unfold index
  rw [List.map_map]
  have h := AMap.nodup_filter (fun e : K × V => sel e.2) m.nd
  rw [List.Nodup, List.pairwise_map] at h ⊢
  refine List.Pairwise.imp_of_mem ?_ h
  rintro ⟨k, v⟩ ⟨k', v'⟩ h1 h2 hne heq
  have e1 := hb _ _ (AMap.mem_iff.mp (List.mem_filter.mp h1).1)
  have e2 := hb _ _ (AMap.mem_iff.mp (List.mem_filter.mp h2).1)
  apply hne
  simp only [Function.comp] at heq
  rw [← e1, ← e2, heq]

end Verif

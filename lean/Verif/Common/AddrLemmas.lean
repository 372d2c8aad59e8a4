/- Lists of addresses: sorting and removal of duplicates. Helper file, no properties. -/
import Verif.Common.Nft
import Verif.Base.Range

namespace Verif

theorem dedup_mem : ∀ (l : List Bytes) (a : Bytes), a ∈ dedupAdj l ↔ a ∈ l
  | [], a => Iff.rfl
  | [x], a => Iff.rfl
  | x :: y :: t, a => by
    have ih := dedup_mem (y :: t) a
    unfold dedupAdj
    split
    case isTrue h => subst h; rw [ih]; simp
    case isFalse => rw [List.mem_cons, ih, List.mem_cons (b := x)]

theorem dedup_sorted : ∀ (l : List Bytes), l.Pairwise (fun a b => bLe a b = true) →
    (dedupAdj l).Pairwise (fun a b => bLe a b = true ∧ a ≠ b)
  | [], _ => List.Pairwise.nil
  | [x], _ => List.pairwise_singleton _ _
  | x :: y :: t, h => by
    have h' := List.pairwise_cons.mp h
    have ih := dedup_sorted (y :: t) h'.2
    unfold dedupAdj
    split
    case isTrue => exact ih
    case isFalse hne =>
      refine List.Pairwise.cons ?_ ih
      intro z hz
      rw [dedup_mem] at hz
      refine ⟨h'.1 z hz, ?_⟩
      rintro rfl
      rw [List.mem_cons] at hz
      rcases hz with hz | hz
      · exact hne hz
      · exact hne (bLe_antisymm (h'.1 y (by simp)) ((List.pairwise_cons.mp h'.2).1 x hz))

theorem mapValidate_ok {valid : Bytes → Bool} {xs r : List Bytes} (h : mapValidate valid xs = .ok r) :
    (∀ a, a ∈ r ↔ a ∈ xs) ∧ r.Nodup ∧ ∀ a ∈ xs, valid a = true := by
  unfold mapValidate at h
  split at h
  case isFalse => cases h
  case isTrue hv =>
    cases h
    refine ⟨fun a => by rw [dedup_mem, mem_sortBy], ?_, List.all_eq_true.mp hv⟩
    exact (dedup_sorted _ (sortBy_pairwise bLe_total (fun _ _ _ => bLe_trans) xs)).imp (fun h => h.2)

end Verif

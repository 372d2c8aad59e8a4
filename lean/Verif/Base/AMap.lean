/-
Key-value storage: association lists with unique keys.
Models cw-storage-plus `Map` / the primary map of `IndexedMap` (save, load, may_load, remove, has).
-/
import Verif.Base.Bytes

namespace Verif

structure AMap (K V : Type) where
  l : List (K × V)
  nd : (l.map Prod.fst).Nodup

namespace AMap
variable {K V : Type} [DecidableEq K]

def empty : AMap K V := ⟨[], List.nodup_nil⟩

/-- `may_load` -/
def get? (m : AMap K V) (k : K) : Option V := (m.l.find? (fun p => decide (p.1 = k))).map Prod.snd

omit [DecidableEq K] in
theorem nodup_filter {l : List (K × V)} (p : K × V → Bool) (h : (l.map Prod.fst).Nodup) :
    ((l.filter p).map Prod.fst).Nodup :=
  List.Nodup.sublist (List.Sublist.map _ List.filter_sublist) h

/-- `remove` -/
def erase (m : AMap K V) (k : K) : AMap K V :=
  ⟨m.l.filter (fun p => decide (p.1 ≠ k)), nodup_filter _ m.nd⟩

/-- `save` -/
def insert (m : AMap K V) (k : K) (v : V) : AMap K V :=
  ⟨(k, v) :: (m.erase k).l, by
    simp only [List.map_cons, List.nodup_cons]
    refine ⟨?_, (m.erase k).nd⟩
    simp [erase]⟩

/-- All stored values. -/
def vals (m : AMap K V) : List V := m.l.map Prod.snd

/-- Sum of `f` over all stored values. -/
def sum (m : AMap K V) (f : V → Nat) : Nat := (m.vals.map f).sum

theorem mem_iff {m : AMap K V} {k : K} {v : V} : (k, v) ∈ m.l ↔ m.get? k = some v := by
  obtain ⟨l, nd⟩ := m
  simp only [get?]
  induction l with
  | nil => simp
  | cons a t ih =>
    obtain ⟨k', v'⟩ := a
    simp only [List.map_cons, List.nodup_cons] at nd
    by_cases h : k' = k
    · subst h
      simp only [List.mem_cons, Prod.mk.injEq, true_and, List.find?_cons, decide_true, Option.map_some,
        Option.some.injEq]
      constructor
      · rintro (h | h)
        · exact h.symm
        · exact absurd (List.mem_map_of_mem (f := Prod.fst) h) nd.1
      · intro h; exact Or.inl h.symm
    · have h' : ¬ k = k' := fun e => h e.symm
      simp only [List.mem_cons, Prod.mk.injEq, h', false_and, false_or, List.find?_cons, h,
        decide_false]
      exact ih nd.2

theorem mem_vals {m : AMap K V} {v : V} : v ∈ m.vals ↔ ∃ k, m.get? k = some v := by
  simp only [vals, List.mem_map, Prod.exists]
  constructor
  · rintro ⟨k, v', h, rfl⟩; exact ⟨k, mem_iff.mp h⟩
  · rintro ⟨k, h⟩; exact ⟨k, v, mem_iff.mpr h, rfl⟩

@[simp] theorem get?_empty (k : K) : (empty : AMap K V).get? k = none := rfl

theorem get?_erase (m : AMap K V) (k k' : K) :
    (m.erase k).get? k' = if k = k' then none else m.get? k' := by
  apply Option.ext
  intro v
  rw [← mem_iff]
  simp only [erase, List.mem_filter, decide_eq_true_eq, mem_iff]
  split
  case isTrue h => subst h; simp
  case isFalse h => exact and_iff_left (fun e : k' = k => h e.symm)

theorem get?_insert (m : AMap K V) (k k' : K) (v : V) :
    (m.insert k v).get? k' = if k = k' then some v else m.get? k' := by
  by_cases h : k = k'
  · subst h; simp [get?, insert]
  · have : (m.insert k v).get? k' = (m.erase k).get? k' := by
      simp [get?, insert, h]
    rw [this, get?_erase]; simp [h]

@[simp] theorem get?_erase_self (m : AMap K V) (k : K) : (m.erase k).get? k = none := by
  simp [get?_erase]

@[simp] theorem get?_insert_self (m : AMap K V) (k : K) (v : V) : (m.insert k v).get? k = some v := by
  simp [get?_insert]

theorem erase_eq_self {m : AMap K V} {k : K} (h : m.get? k = none) : m.erase k = m := by
  obtain ⟨l, nd⟩ := m
  simp only [erase, AMap.mk.injEq]
  apply List.filter_eq_self.mpr
  rintro ⟨a, b⟩ hm
  simp only [decide_eq_true_eq]
  rintro rfl
  have := mem_iff (m := ⟨l, nd⟩).mp hm
  rw [h] at this; cases this

omit [DecidableEq K] in
@[simp] theorem sum_empty (f : V → Nat) : (empty : AMap K V).sum f = 0 := rfl

/-- Removing a key lowers the sum by that entry. -/
theorem sum_erase (m : AMap K V) (k : K) (f : V → Nat) :
    (m.erase k).sum f + ((m.get? k).map f).getD 0 = m.sum f := by
  obtain ⟨l, nd⟩ := m
  simp only [sum, erase, get?, vals]
  induction l with
  | nil => rfl
  | cons a t ih =>
    obtain ⟨k', v'⟩ := a
    simp only [List.map_cons, List.nodup_cons] at nd
    by_cases h : k' = k
    · subst h
      have : t.filter (fun p => decide (p.1 ≠ k')) = t := by
        apply List.filter_eq_self.mpr
        rintro ⟨a, b⟩ hm
        simp only [decide_eq_true_eq]
        rintro rfl
        exact nd.1 (List.mem_map_of_mem (f := Prod.fst) hm)
      rw [List.filter_cons_of_neg (by simp), this]
      simp [Nat.add_comm]
    · have := ih nd.2
      simp only [ne_eq, h, not_false_eq_true, decide_true, List.filter_cons_of_pos, List.map_cons,
        List.sum_cons, List.find?_cons, decide_false] at this ⊢
      omega

/-- Saving a key replaces that entry in the sum. -/
theorem sum_insert (m : AMap K V) (k : K) (v : V) (f : V → Nat) :
    (m.insert k v).sum f + ((m.get? k).map f).getD 0 = m.sum f + f v := by
  have h := sum_erase m k f
  have : (m.insert k v).sum f = f v + (m.erase k).sum f := by simp [sum, insert, vals]
  omega

theorem sum_erase_of_get? {m : AMap K V} {k : K} {v : V} (f : V → Nat) (h : m.get? k = some v) :
    (m.erase k).sum f + f v = m.sum f := by
  have := sum_erase m k f
  simpa [h] using this

theorem sum_insert_new {m : AMap K V} {k : K} (v : V) (f : V → Nat) (h : m.get? k = none) :
    (m.insert k v).sum f = m.sum f + f v := by
  have := sum_insert m k v f
  simpa [h] using this

theorem sum_insert_old {m : AMap K V} {k : K} {o : V} (v : V) (f : V → Nat) (h : m.get? k = some o) :
    (m.insert k v).sum f + f o = m.sum f + f v := by
  have := sum_insert m k v f
  simpa [h] using this

theorem le_sum {m : AMap K V} {k : K} {v : V} (f : V → Nat) (h : m.get? k = some v) :
    f v ≤ m.sum f := by
  have := sum_erase_of_get? f h
  omega

end AMap
end Verif

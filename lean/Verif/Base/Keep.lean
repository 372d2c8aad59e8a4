/-
Part of a map: the entries that satisfy a condition. Used to say what a call would do if the others were not there.
-/
import Verif.Base.AMap
import Verif.Base.Res

namespace Verif
namespace AMap
variable {K V : Type} [DecidableEq K]

/-- The entries that satisfy `q`. -/
def keep (m : AMap K V) (q : K → V → Bool) : AMap K V := ⟨m.l.filter (fun e => q e.1 e.2), nodup_filter _ m.nd⟩

theorem get?_keep (m : AMap K V) (q : K → V → Bool) (k : K) : (m.keep q).get? k = (m.get? k).filter (q k) := by
  apply Option.ext
  intro v
  rw [← mem_iff, Option.filter_eq_some_iff, ← mem_iff]
  simp only [keep, List.mem_filter]

theorem get?_keep_pos {m : AMap K V} {q : K → V → Bool} {k : K} (h : ∀ v, m.get? k = some v → q k v = true) :
    (m.keep q).get? k = m.get? k := by
  rw [get?_keep]
  cases hv : m.get? k with
  | none => rfl
  | some v => rw [Option.filter_some, if_pos (h v hv)]

theorem keep_erase (m : AMap K V) (q : K → V → Bool) (k : K) : (m.erase k).keep q = (m.keep q).erase k := by
  simp only [keep, erase, AMap.mk.injEq, List.filter_filter]
  apply List.filter_congr
  intro e _
  exact Bool.and_comm _ _

theorem keep_insert (m : AMap K V) (q : K → V → Bool) (k : K) (v : V) (h : q k v = true) :
    (m.insert k v).keep q = (m.keep q).insert k v := by
  have e := congrArg AMap.l (keep_erase m q k)
  simp only [keep, insert, AMap.mk.injEq]
  rw [List.filter_cons_of_pos (by simpa using h)]
  exact congrArg _ e

/-- Entries outside do not matter. -/
theorem keep_erase_out (m : AMap K V) (q : K → V → Bool) (k : K) (h : ∀ v, m.get? k = some v → q k v = false) :
    (m.erase k).keep q = m.keep q := by
  rw [keep_erase]
  apply erase_eq_self
  rw [get?_keep]
  cases hv : m.get? k with
  | none => rfl
  | some v => rw [Option.filter_some, h v hv]; rfl

theorem keep_insert_out (m : AMap K V) (q : K → V → Bool) (k : K) (v : V) (h : q k v = false)
    (h' : ∀ v, m.get? k = some v → q k v = false) : (m.insert k v).keep q = m.keep q := by
  rw [← keep_erase_out m q k h']
  simp only [keep, insert, AMap.mk.injEq]
  rw [List.filter_cons_of_neg (by simp [h])]

omit [DecidableEq K] in
theorem keep_keep (m : AMap K V) (q : K → V → Bool) : (m.keep q).keep q = m.keep q := by
  simp only [keep, List.filter_filter, Bool.and_self]

omit [DecidableEq K] in
@[simp] theorem keep_empty (q : K → V → Bool) : (empty : AMap K V).keep q = empty := rfl

end AMap

section
variable {α β γ : Type}

theorem map_bind (g : β → γ) (x : Res α) (f : α → Res β) : (x >>= f).map g = x >>= fun a => (f a).map g := by
  cases x <;> rfl

theorem bind_same {x : Res α} {f g : α → Res β} (h : ∀ a, x = .ok a → f a = g a) : (x >>= f) = (x >>= g) := by
  cases x with
  | error => rfl
  | ok a => exact h a rfl

end
end Verif

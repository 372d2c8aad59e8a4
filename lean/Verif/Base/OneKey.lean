/-
Changes that stay at one key of a map. Specification vocabulary of C155.
-/
import Verif.Base.AMap

namespace Verif

namespace Spec

/-- Two maps answer alike everywhere but at one key. -/
def OneKey {K V : Type} [DecidableEq K] (m m' : AMap K V) : Prop := ∃ k, ∀ k', k' ≠ k → m'.get? k' = m.get? k'

end Spec

open Spec

variable {K V : Type} [DecidableEq K] {m : AMap K V}

theorem Spec.OneKey.same (k : K) : OneKey m m := ⟨k, fun _ _ => rfl⟩

theorem Spec.OneKey.put (k : K) (v : V) : OneKey m (m.insert k v) :=
  ⟨k, fun k' h => by rw [AMap.get?_insert, if_neg (fun e => h e.symm)]⟩

theorem Spec.OneKey.drop (k : K) : OneKey m (m.erase k) :=
  ⟨k, fun k' h => by rw [AMap.get?_erase, if_neg (fun e => h e.symm)]⟩

theorem Spec.OneKey.renew (k : K) (v : V) : OneKey m ((m.erase k).insert k v) :=
  ⟨k, fun k' h => by rw [AMap.get?_insert, if_neg (fun e => h e.symm), AMap.get?_erase, if_neg (fun e => h e.symm)]⟩

theorem AMap.erase_erase (m : AMap K V) (k : K) : (m.erase k).erase k = m.erase k :=
  AMap.erase_eq_self (AMap.get?_erase_self m k)

theorem AMap.insert_erase (m : AMap K V) (k : K) (v : V) : (m.erase k).insert k v = m.insert k v := by
  unfold AMap.insert
  simp only [AMap.erase_erase]

end Verif

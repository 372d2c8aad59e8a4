/-
Helper lemmas about v1 queries: orders of keys.
-/
import Verif.V1.Query
import Verif.V1.Inv

namespace Verif.V1
open Verif

/-! ### Specification -/

namespace Spec

/-- Whole seconds of a timestamp in nanoseconds. -/
def secs (t : Nat) : Nat := t / 1000000000

end Spec
open Spec

theorem seconds_eq (t : Nat) : seconds t = secs t := by unfold seconds secs NS; rfl

theorem askPkLin : Lin askPkLe := lexLin lenLin natLin
theorem bidPkLin : Lin bidPkLe := lexLin lenLin (lexLin natLin bytesLin)
theorem cbidPkLin : Lin cbidPkLe := lexLin lenLin bytesLin

theorem ltK_ask {a b : AskKey} : ltK askPkLe a b = true ↔ shortlex a.1 b.1 ∨ (a.1 = b.1 ∧ a.2 < b.2) := by
  unfold askPkLe; rw [ltK_lex lenLin, ltK_lenLe, ltK_nat]

theorem ltK_bid {a b : BidKey} : ltK bidPkLe a b = true ↔
    shortlex a.1 b.1 ∨ (a.1 = b.1 ∧ (a.2.1 < b.2.1 ∨ (a.2.1 = b.2.1 ∧ dict a.2.2 b.2.2))) := by
  unfold bidPkLe; rw [ltK_lex lenLin, ltK_lenLe, ltK_lex natLin, ltK_nat, ltK_bLe]

theorem ltK_cbid {a b : CBidKey} : ltK cbidPkLe a b = true ↔ shortlex a.1 b.1 ∨ (a.1 = b.1 ∧ dict a.2 b.2) := by
  unfold cbidPkLe; rw [ltK_lex lenLin, ltK_lenLe, ltK_bLe]

end Verif.V1

/-
Results of contract calls. Rust `Result<_, ContractError>`; a Rust panic (arithmetic overflow with
`overflow-checks = true`, `unwrap` on `None`) aborts the transaction like an error and is `Err.panic`.
-/
namespace Verif

/-- Error classes. Error payloads and texts are not modelled. -/
inductive Err
  | std | panic | overflow | unauthorized | invalidInput | insufficientFunds | noMatch
  | notTradable | payment | notFound | invalidConfig | exists_ | started | ended | notEnded
  | tooLow | sellerBid | wrongFee | zeroSend | internal | notActive | expired | invalidPrice
  | invalidReserve | invalidFinder | feesExceed | tokenReserved | notStale | notOperator
  deriving DecidableEq, Repr

abbrev Res := Except Err

/-- `ensure!(cond, err)` -/
def ensure (c : Prop) [Decidable c] (e : Err) : Res Unit := if c then .ok () else .error e

/-- `option.ok_or(err)?` / `load` -/
def orErr {α : Type} (o : Option α) (e : Err) : Res α :=
  match o with
  | some a => .ok a
  | none => .error e

section
variable {α β : Type}

theorem bind_ok {x : Res α} {f : α → Res β} {r : β} :
    (x >>= f) = .ok r ↔ ∃ a, x = .ok a ∧ f a = .ok r := by
  cases x with
  | error e => simp [bind, Except.bind]
  | ok a => simp [bind, Except.bind]

theorem ensure_ok {c : Prop} [Decidable c] {e : Err} {u : Unit} : ensure c e = .ok u ↔ c := by
  unfold ensure; split <;> simp_all

theorem ensure_eq {c : Prop} [Decidable c] {e : Err} (h : c) : ensure c e = .ok () := by
  simp [ensure, h]

theorem orErr_ok {o : Option α} {e : Err} {a : α} : orErr o e = .ok a ↔ o = some a := by
  cases o <;> simp [orErr]

theorem pure_ok {a b : α} : (pure a : Res α) = .ok b ↔ a = b := by
  simp [pure, Except.pure]

theorem throw_ok {e : Err} {b : α} : ¬ ((throw e : Res α) = .ok b) := by
  simp [throw, throwThe, MonadExceptOf.throw]

theorem ok_bind {a : α} {f : α → Res β} : ((Except.ok a : Res α) >>= f) = f a := rfl

end
end Verif

/-
The `migrate` entry points of the three contracts and the record they keep of the code that runs (cw2
`CONTRACT`, key `contract_info`). The rest of the state is not touched by any of them.
Not part of /repo: cw2 (`set_contract_version` overwrites the record, `get_contract_version` fails without one) and the
crate semver, whose parser and order are a parameter (`Semver`), assumed to be a total order (`Semver.Ok`).
-/
import Verif.Base.Res
import Verif.Base.Event

namespace Verif

/-- cw2 `ContractVersion`; also the constants `CONTRACT_NAME` and `CONTRACT_VERSION` of some code. -/
structure Info where
  name : Bytes
  version : Bytes
  deriving DecidableEq, Repr

/-- semver `Version`: `parse` and `<`. -/
structure Semver where
  V : Type
  eq : DecidableEq V
  parse : Bytes → Option V
  lt : V → V → Bool

/-- The order of versions is total. -/
structure Semver.Ok (sv : Semver) : Prop where
  irrefl : ∀ a, sv.lt a a = false
  trans : ∀ a b c, sv.lt a b = true → sv.lt b c = true → sv.lt a c = true
  total : ∀ a b, sv.lt a b = true ∨ a = b ∨ sv.lt b a = true

namespace V1

/-- execute.rs 31-32 (contracts/marketplace, version of Cargo.toml) -/
def code : Info := ⟨txt "crates.io:sg-marketplace", txt "1.4.0"⟩

/-- execute.rs 1462-1487 `migrate`, for the code with these constants -/
def migrate (sv : Semver) (code : Info) (record : Option Info) : Res (Option Info) :=
  orErr record .notFound >>= fun current =>
  ensure (current.name = code.name) .std >>= fun _ =>
  orErr (sv.parse current.version) .std >>= fun v =>
  orErr (sv.parse code.version) .std >>= fun new =>
  if sv.lt new v then .error .std
  else if @decide (v = new) (sv.eq v new) then .ok (some current)
  else .ok (some code)

end V1

namespace V2

/-- constants.rs 1-2 (contracts/stargaze-marketplace-v2, name and version of Cargo.toml) -/
def code : Info := ⟨txt "stargaze-marketplace-v2", txt "0.7.0"⟩

/-- migrate.rs 17-23 `migrate` -/
def migrate (code : Info) (_record : Option Info) : Res (Option Info) := .ok (some code)

end V2

namespace Auction

/-- instantiate.rs 12-13 (contracts/reserve-auction, version of Cargo.toml) -/
def code : Info := ⟨txt "crates.io:stargaze-reserve-auction", txt "1.0.2"⟩

/-- migrate.rs 12-16 `migrate` -/
def migrate (code : Info) (_record : Option Info) : Res (Option Info) := .ok (some code)

end Auction

/-! ### Specification -/

namespace Spec

/-- The life of a deployment: it starts with `init`, the contract works (`step`), and from time to time the chain
migrates it to other code, whose `migrate` decides whether it takes over. The code that runs, its record, and the state. -/
inductive Life {S : Type} (mig : Info → Option Info → Res (Option Info)) (init : S → Prop) (step : S → S → Prop) :
    Info → Option Info → S → Prop where
  | deploy (code : Info) {s : S} (h : init s) : Life mig init step code (some code) s
  | step {code : Info} {r : Option Info} {s s' : S} (hl : Life mig init step code r s) (h : step s s') :
      Life mig init step code r s'
  | migrate {code new : Info} {r r' : Option Info} {s : S} (hl : Life mig init step code r s) (h : mig new r = .ok r') :
      Life mig init step new r' s

/-- Migrations one after the other: the code and its record, before and after. -/
inductive Migrations (mig : Info → Option Info → Res (Option Info)) : Info × Option Info → Info × Option Info → Prop where
  | refl (x : Info × Option Info) : Migrations mig x x
  | step {x y : Info × Option Info} {new : Info} {r : Option Info} (hm : Migrations mig x y) (h : mig new y.2 = .ok r) :
      Migrations mig x (new, r)

/-- The second version is the same or a later one. -/
def NotOlder (sv : Semver) (a b : Bytes) : Prop :=
  ∃ v w, sv.parse a = some v ∧ sv.parse b = some w ∧ (v = w ∨ sv.lt v w = true)

end Spec

/-! ### Versions of three numbers -/

/-- A number as in semver: no sign, no leading zero, u64. -/
def readPart (bs : Bytes) : Option Nat :=
  if bs.head? = some 48 ∧ bs.length ≠ 1 then none
  else (readNat bs).bind fun n => if n < 2^64 then some n else none

/-- Versions without pre-release or build part: `major.minor.patch`. -/
def readVersion (bs : Bytes) : Option (Nat × Nat × Nat) :=
  (readPart (bs.takeWhile (· ≠ 46))).bind fun a =>
  (readPart (((bs.dropWhile (· ≠ 46)).drop 1).takeWhile (· ≠ 46))).bind fun b =>
  (readPart ((((bs.dropWhile (· ≠ 46)).drop 1).dropWhile (· ≠ 46)).drop 1)).map fun c => (a, b, c)

/-- The order of such versions. -/
def olderVersion (x y : Nat × Nat × Nat) : Bool :=
  decide (x.1 < y.1 ∨ (x.1 = y.1 ∧ (x.2.1 < y.2.1 ∨ (x.2.1 = y.2.1 ∧ x.2.2 < y.2.2))))

/-- An instance of `Semver`: the versions all code of /repo has. -/
def numbered : Semver := ⟨Nat × Nat × Nat, inferInstance, readVersion, olderVersion⟩

theorem numbered_ok : numbered.Ok where
  irrefl a := by
    show olderVersion a a = false
    simp [olderVersion]
  trans a b c h1 h2 := by
    obtain ⟨a1, a2, a3⟩ := a
    obtain ⟨b1, b2, b3⟩ := b
    obtain ⟨c1, c2, c3⟩ := c
    replace h1 := of_decide_eq_true h1
    replace h2 := of_decide_eq_true h2
    refine decide_eq_true ?_
    simp only at *
    omega
  total a b := by
    obtain ⟨a1, a2, a3⟩ := a
    obtain ⟨b1, b2, b3⟩ := b
    by_cases h : a1 = b1 ∧ a2 = b2 ∧ a3 = b3
    · obtain ⟨rfl, rfl, rfl⟩ := h; exact .inr (.inl rfl)
    · by_cases h2 : a1 < b1 ∨ (a1 = b1 ∧ (a2 < b2 ∨ (a2 = b2 ∧ a3 < b3)))
      · exact .inl (decide_eq_true h2)
      · refine .inr (.inr (decide_eq_true ?_))
        simp only
        omega

example : (readVersion (txt "1.4.0"), readVersion (txt "1.04.0"), readVersion (txt "1.4"), readVersion (txt "1.4.0.1")) =
    (some (1, 4, 0), none, none, none) := by decide +kernel
/-- Numbers count, not digits. -/
example : (readVersion (txt "1.10.0")).bind (fun a => (readVersion (txt "1.9.3")).map fun b => olderVersion b a) =
    some true := by decide +kernel

end Verif

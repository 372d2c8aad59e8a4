/-
A small concrete deployment used by the examples that accompany the property theorems.
-/
import Verif.V2.ReachLemmas

namespace Verif.V2.Sample
open Verif Spec

/-- Addresses are three-byte strings without '/'; the hash is the identity. -/
def P : Params where
  hash := id
  valid a := decide (a.length = 3 ∧ (47 : UInt8) ∉ a)
  defLimit := 10
  maxLimit := 100

theorem hashInj : HashInj P := fun _ _ h => h
theorem noSlash : NoSlash P := by
  intro a h
  simp only [P, decide_eq_true_eq] at h
  exact h.2
theorem prefixFree : PrefixFree P := by
  intro a b t h1 h2 h
  simp only [P, decide_eq_true_eq] at h1 h2
  have := congrArg List.length h
  rw [List.length_append] at this
  exact List.eq_nil_of_length_eq_zero (by omega)

def self : Addr := [1, 1, 1]
def feeMgr : Addr := [2, 2, 2]
def registry : Addr := [3, 3, 3]
def coll : Addr := [4, 4, 4]
def alice : Addr := [5, 5, 5]
def bob : Addr := [6, 6, 6]
def carol : Addr := [7, 7, 7]
def admin : Addr := [8, 8, 8]
def artist : Addr := [9, 9, 9]
def ust : Denom := [117]
def tok : Bytes := [49]

def cfg : Config := ⟨feeMgr, registry, 200, 1000, 4000, 1000, ust⟩

/-- Query answers: token owner as given, 5% collection royalty, empty registry. -/
def q (owner : Option Addr) (start : Option Nat) : Queries where
  admin := some (some admin)
  ownerOf c t := if c = coll ∧ t = tok then owner else none
  approval _ _ := true
  collInfo _ := some ⟨start, some ⟨artist, 5 * 10^16⟩⟩
  registry _ _ := some (none, none)

def ctx (owner : Option Addr) (start : Option Nat := none) : Ctx := ⟨self, 1000, 7, q owner start⟩

def det (n : Nat) : Details := ⟨⟨ust, n⟩, none, none⟩
def det' (n : Nat) (finder : Addr) : Details := ⟨⟨ust, n⟩, none, some finder⟩

/-- State and messages after a call (unchanged on failure). -/
def run (c : Ctx) (sender : Addr) (funds : List Coin) (m : Exec) (s : State) : State × List Msg :=
  match execute P c sender funds m s with
  | .ok r => r
  | .error _ => (s, [])

def ok (c : Ctx) (sender : Addr) (funds : List Coin) (m : Exec) (s : State) : Bool :=
  match execute P c sender funds m s with
  | .ok _ => true
  | .error _ => false

theorem run_eq {c : Ctx} {sender : Addr} {funds : List Coin} {m : Exec} {s : State}
    (h : ok c sender funds m s = true) : execute P c sender funds m s = .ok (run c sender funds m s) := by
  unfold ok at h
  unfold run
  split at h
  case h_1 r hr => rw [hr]
  case h_2 => cases h

def s0 : State := { config := cfg, collectionDenoms := .empty, listingFees := .empty, nonce := 0,
                    asks := .empty, bids := .empty, cbids := .empty }
/-- the admin sets a listing fee of 5 -/
def s1 : State := (run (ctx none) admin [] (.setListingFee ⟨ust, 5⟩) s0).1
/-- alice lists the token for 100 -/
def s2 : State := (run (ctx (some alice)) alice [⟨ust, 5⟩] (.setAsk coll tok (det 100)) s1).1
/-- bob bids 80 on the token -/
def s3 : State := (run (ctx (some self)) bob [⟨ust, 80⟩] (.setBid coll tok (det' 80 carol)) s2).1
/-- carol bids 90 on the collection, sending 95 -/
def s4 : State := (run (ctx (some self)) carol [⟨ust, 95⟩] (.setCollectionBid coll (det 90)) s3).1

theorem init0 : instantiate P cfg = .ok s0 := rfl
theorem r0 {G : State → Prop} : Reach P self G s0 := .init init0
theorem next {G : State → Prop} {s : State} {c : Ctx} {sender : Addr} {funds : List Coin} {m : Exec}
    (hr : Reach P self G s) (hg : G s) (hself : c.self = self) (hne : sender ≠ self)
    (h : ok c sender funds m s = true) : Reach P self G (run c sender funds m s).1 :=
  .call hr hg hself hne (run_eq h)

instance (s : State) : Decidable (NoWrap s) := by unfold NoWrap; infer_instance

theorem r1 : Reach P self NoWrap s1 := next r0 (by decide +kernel) rfl (by decide) (by decide +kernel)
theorem r2 : Reach P self NoWrap s2 := next r1 (by decide +kernel) rfl (by decide) (by decide +kernel)
theorem r3 : Reach P self NoWrap s3 := next r2 (by decide +kernel) rfl (by decide) (by decide +kernel)
theorem r4 : Reach P self NoWrap s4 := next r3 (by decide +kernel) rfl (by decide) (by decide +kernel)

/-- id of alice's ask -/
def aid : Bytes := askId P coll tok
/-- ids of bob's and carol's orders -/
def bid : Bytes := P.hash (coll ++ tok ++ be8 7 ++ be8 1)
def cid : Bytes := P.hash (coll ++ be8 7 ++ be8 2)

example : (s4.asks.get? aid).isSome ∧ (s4.bids.get? bid).isSome ∧ (s4.cbids.get? cid).isSome := by
  decide +kernel

end Verif.V2.Sample

/-
A small concrete deployment used by the examples and counterexamples that accompany the property theorems.
-/
import Verif.Auction.Funds

namespace Verif.Auction.Sample
open Verif Spec

/-- Addresses are three-byte strings. -/
def P : Params where
  valid a := decide (a.length = 3)
  lib := lib0

theorem libOk : LibOk P.lib := lib0_ok
theorem libCalm : LibCalm P.lib := lib0_calm

def self : Addr := [1, 1, 1]
def burn : Addr := [2, 2, 2]
def coll : Addr := [4, 4, 4]
/-- a collection that asks for a royalty of 200% -/
def evil : Addr := [3, 3, 3]
def alice : Addr := [5, 5, 5]
def bob : Addr := [6, 6, 6]
def carol : Addr := [7, 7, 7]
def artist : Addr := [9, 9, 9]
def ust : Denom := [117]
def tok : Bytes := [49]

/-- trading fee 2%, increment 5%, durations 10..1000 s, extension 30 s, creation fee 5, two settlements per block,
halt after 100 s, buffer 50 s, postponement 60 s -/
def cfg : Config := ⟨burn, 2 * 10^16, 5 * 10^16, 10, 1000, 30, ⟨ust, 5⟩, 2, 100, 50, 60⟩

def q (owner : Option Addr) : Queries where
  admin := none
  ownerOf _ _ := owner
  approval _ _ := true
  collInfo c := some ⟨none, some ⟨artist, if c = evil then 2 * 10^18 else 5 * 10^16⟩⟩
  registry _ _ := none

/-- Context at `ms` milliseconds. -/
def ctx (ms : Nat) (owner : Option Addr := some self) : Ctx := ⟨self, ms * 1000000, 7, q owner⟩

def run (c : Ctx) (sender : Addr) (funds : List Coin) (m : Exec) (s : State) : State × List Msg :=
  match execute P c sender funds m s with
  | .ok r => r
  | .error _ => (s, [])

def ok (c : Ctx) (sender : Addr) (funds : List Coin) (m : Exec) (s : State) : Bool :=
  match execute P c sender funds m s with
  | .ok _ => true
  | .error _ => false

theorem run_eq {c : Ctx} {sender : Addr} {funds : List Coin} {m : Exec} {s : State}
    (h : ok c sender funds m s = true) : execute P c sender funds m s = .ok (run c sender funds m s) := by
  unfold ok at h
  unfold run
  split at h
  case h_1 r hr => rw [hr]
  case h_2 => cases h

def srun (c : Ctx) (m : Sudo) (s : State) : State × List Msg :=
  match sudo P c m s with
  | .ok r => r
  | .error _ => (s, [])

def sok (c : Ctx) (m : Sudo) (s : State) : Bool :=
  match sudo P c m s with
  | .ok _ => true
  | .error _ => false

theorem srun_eq {c : Ctx} {m : Sudo} {s : State} (h : sok c m s = true) : sudo P c m s = .ok (srun c m s) := by
  unfold sok at h
  unfold srun
  split at h
  case h_1 r hr => rw [hr]
  case h_2 => cases h

theorem sfail {c : Ctx} {m : Sudo} {s : State} (h : sok c m s = false) : ¬ ∃ r, sudo P c m s = .ok r := by
  rintro ⟨r, hr⟩
  unfold sok at h
  rw [hr] at h
  cases h

def s0 : State := { config := cfg, minReserve := (AMap.empty : AMap Denom Nat).insert ust 10, auctions := .empty, prevBlock := 0,
                    windows := [] }
/-- block at 1000 s -/
def s1 : State := (srun (ctx 1000000) .beginBlock s0).1
/-- alice puts the token up for auction: reserve 100, 60 s -/
def s2 : State := (run (ctx 1000000 (some alice)) alice [⟨ust, 5⟩] (.create coll tok ⟨ust, 100⟩ 60 none) s1).1
/-- bob bids 100: ends at 1060 s -/
def s3 : State := (run (ctx 1000000) bob [⟨ust, 100⟩] (.bid coll tok) s2).1
/-- carol bids 120 at 1040.5 s: 19 s are left, the end moves to 1070.5 s -/
def s4 : State := (run (ctx 1040500) carol [⟨ust, 120⟩] (.bid coll tok) s3).1
/-- settled at 1080 s -/
def s5 : State := (run (ctx 1080000) bob [] (.settle coll tok) s4).1

theorem init0 : instantiate P cfg [⟨ust, 10⟩] = .ok s0 := rfl
theorem r0 : Reach P self s0 := ⟨_, _, _, init0, .refl _⟩
theorem next {s : State} {c : Ctx} {sender : Addr} {funds : List Coin} {m : Exec} (hr : Reach P self s)
    (h : ok c sender funds m s = true) (hself : c.self = self) (hne : sender ≠ self) :
    Reach P self (run c sender funds m s).1 := hr.step (.call hself hne (run_eq h))
theorem snext {s : State} {c : Ctx} {m : Sudo} (hr : Reach P self s) (h : sok c m s = true) (hself : c.self = self) :
    Reach P self (srun c m s).1 := hr.step (.sudo hself (srun_eq h))

theorem r1 : Reach P self s1 := snext r0 (by decide +kernel) rfl
theorem r2 : Reach P self s2 := next r1 (by decide +kernel) rfl (by decide)
theorem r3 : Reach P self s3 := next r2 (by decide +kernel) rfl (by decide)
theorem r4 : Reach P self s4 := next r3 (by decide +kernel) rfl (by decide)
theorem r5 : Reach P self s5 := next r4 (by decide +kernel) rfl (by decide)

example : (s4.auctions.get? (coll, tok)).map (fun a => (a.endTime, a.highBid)) =
    some (some 1070500000000, some ⟨⟨ust, 120⟩, carol⟩) := by decide +kernel
example : s5.auctions.get? (coll, tok) = none := by decide +kernel
example : (run (ctx 1080000) bob [] (.settle coll tok) s4).2 =
    [.fairBurn [⟨ust, 3⟩], .send artist [⟨ust, 6⟩], .send alice [⟨ust, 111⟩], .nft coll tok carol] := by decide +kernel

end Verif.Auction.Sample

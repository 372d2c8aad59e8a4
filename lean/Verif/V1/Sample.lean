/-
A small concrete deployment used by the examples and counterexamples that accompany the property theorems.
-/
import Verif.V1.Inv

namespace Verif.V1.Sample
open Verif Spec

/-- Addresses are three-byte strings. -/
def P : Params where
  valid a := decide (a.length = 3)

def self : Addr := [1, 1, 1]
def hk : Addr := [2, 2, 2]
def coll : Addr := [4, 4, 4]
/-- a collection without royalty -/
def free : Addr := [3, 3, 3]
def alice : Addr := [5, 5, 5]
def bob : Addr := [6, 6, 6]
def carol : Addr := [7, 7, 7]
def oper : Addr := [8, 8, 8]
def artist : Addr := [9, 9, 9]

/-- trading fee 2%, expiry ranges 60..10000 s, finder's fee up to 10%, minimum price 5, stale after 100 s, reward 5%,
listing fee 3 -/
def ini : Init := ⟨200, ⟨60, 10000⟩, ⟨60, 10000⟩, [oper], some hk, 1000, 5, .time 100, 500, 3⟩

def q (owner : Option Addr) : Queries where
  admin := none
  ownerOf _ _ := owner
  approval _ _ := true
  collInfo c := some ⟨none, if c = free then none else some ⟨artist, 5 * 10^16⟩⟩
  registry _ _ := none

def NSs : Nat := 1000000000

/-- Context at `n` seconds. -/
def ctx (n : Nat) (owner : Option Addr := some alice) : Ctx := ⟨self, n * NSs, 7, q owner⟩

def run (c : Ctx) (sender : Addr) (funds : List Coin) (m : Exec) (s : State) : State × List Msg :=
  match execute P c sender funds m s with
  | .ok r => r
  | .error _ => (s, [])

def ok (c : Ctx) (sender : Addr) (funds : List Coin) (m : Exec) (s : State) : Bool :=
  match execute P c sender funds m s with
  | .ok _ => true
  | .error _ => false

theorem run_eq {c : Ctx} {sender : Addr} {funds : List Coin} {m : Exec} {s : State}
    (h : ok c sender funds m s = true) : execute P c sender funds m s = .ok (run c sender funds m s) := by
  unfold ok at h
  unfold run
  split at h
  case h_1 r hr => rw [hr]
  case h_2 => cases h

def srun (c : Ctx) (m : Sudo) (s : State) : State × List Msg :=
  match sudo P c m s with
  | .ok r => r
  | .error _ => (s, [])

def sok (c : Ctx) (m : Sudo) (s : State) : Bool :=
  match sudo P c m s with
  | .ok _ => true
  | .error _ => false

theorem srun_eq {c : Ctx} {m : Sudo} {s : State} (h : sok c m s = true) : sudo P c m s = .ok (srun c m s) := by
  unfold sok at h
  unfold srun
  split at h
  case h_1 r hr => rw [hr]
  case h_2 => cases h

def s0 : State :=
  match instantiate P ini with
  | .ok s => s
  | .error _ => ⟨⟨0, ⟨0, 0⟩, ⟨0, 0⟩, [], 0, 0, .time 0, 0, 0⟩, .empty, .empty, .empty, [], [], [], []⟩

def us (n : Nat) : List Coin := [⟨NATIVE, n⟩]

/-- hooks for asks and bids are registered -/
def s1 : State := (srun (ctx 1000) (.addAskHook hk) s0).1
def s2 : State := (srun (ctx 1000) (.addBidHook hk) s1).1
def askMsg : Exec := .setAsk .fixedPrice coll 1 ⟨NATIVE, 101⟩ none none (some 500) (2000 * NSs)
/-- alice lists token 1 for 101, finder's fee 5% -/
def s3 : State := (run (ctx 1000) alice (us 3) askMsg s2).1
def bidMsg : Exec := .setBid coll 1 (3000 * NSs) .fixedPrice none (some 300)
/-- bob bids 60 for it -/
def s4 : State := (run (ctx 1000) bob (us 60) bidMsg s3).1
/-- carol bids 50 for anything in the collection -/
def s5 : State := (run (ctx 1000) carol (us 50) (.setCollectionBid coll (3000 * NSs) none) s4).1
/-- bob raises to 70 -/
def s6 : State := (run (ctx 1001) bob (us 70) bidMsg s5).1
def buyMsg : Exec := .buyNow coll 1 (3000 * NSs) (some oper) none
/-- carol buys -/
def s7 : State := (run (ctx 1002) carol (us 101) buyMsg s6).1

theorem init0 : instantiate P ini = .ok s0 := rfl
theorem r0 : Reach P self s0 := ⟨_, _, init0, .refl _⟩
theorem next {s : State} {c : Ctx} {sender : Addr} {funds : List Coin} {m : Exec} (hr : Reach P self s)
    (h : ok c sender funds m s = true) (hself : c.self = self) (hne : sender ≠ self) :
    Reach P self (run c sender funds m s).1 := hr.step (.call hself hne (run_eq h))
theorem snext {s : State} {c : Ctx} {m : Sudo} (hr : Reach P self s) (h : sok c m s = true) (hself : c.self = self) :
    Reach P self (srun c m s).1 := hr.step (.sudo hself (srun_eq h))

theorem r1 : Reach P self s1 := snext r0 (by decide +kernel) rfl
theorem r2 : Reach P self s2 := snext r1 (by decide +kernel) rfl
theorem r3 : Reach P self s3 := next r2 (by decide +kernel) rfl (by decide)
theorem r4 : Reach P self s4 := next r3 (by decide +kernel) rfl (by decide)
theorem r5 : Reach P self s5 := next r4 (by decide +kernel) rfl (by decide)
theorem r6 : Reach P self s6 := next r5 (by decide +kernel) rfl (by decide)
theorem r7 : Reach P self s7 := next r6 (by decide +kernel) rfl (by decide)

example : openBids s6 = 120 := by decide +kernel
example : ustars = NATIVE := by decide +kernel
/-- fee 2, finder 5, artist 5, alice floor(101 * 0.95) - 7 = 88: one unit stays -/
example : (run (ctx 1002) carol (us 101) buyMsg s6).2 =
    [.fairBurn (us 2), .send oper (us 5), .send artist (us 5), .send alice (us 88), .nft coll [49] carol,
     .hook hk ⟨.sale, none, coll, some 1, 101, alice, some carol⟩] := by decide +kernel

/-! ### Worlds -/

def w0 : World State where
  bank a d := if d = NATIVE ∧ (a = bob ∨ a = carol ∨ a = alice) then 1000 else 0
  owner c t := if c = coll ∧ t = tokStr 1 then some alice else none
  approved _ _ := true
  time := 1000000000000
  height := 7
  st := s0

abbrev hon : Addr → Prop := fun _ => True
abbrev M := sys P self hon
def qw (w : World State) : Queries := { q none with ownerOf := w.owner }

def at_ (w : World State) (sender : Addr) (funds : List Coin) (m : Exec) : World State :=
  { w with bank := moveFunds w.bank sender self funds, st := (run (M.ctx w (qw w)) sender funds m w.st).1 }

theorem call2 {w : World State} (hr : Run P self hon (w, [])) {sender : Addr} {funds : List Coin} {m : Exec} {msgs : List Msg}
    (hne : sender ≠ self) (hfunds : ∀ d, amountOf d funds ≤ w.bank sender d)
    (hs : ok (M.ctx w (qw w)) sender funds m w.st = true) (hm : (run (M.ctx w (qw w)) sender funds m w.st).2 = msgs) :
    Run P self hon (at_ w sender funds m, msgs) := by
  have h1 := Sys.Step.call (S := M) w [] sender funds m (qw w) (run (M.ctx w (qw w)) sender funds m w.st).1
    (run (M.ctx w (qw w)) sender funds m w.st).2 trivial hne hfunds (fun _ _ _ => rfl) (run_eq hs)
  rw [hm, List.append_nil] at h1
  exact Spec.Run.step hr h1

theorem us_only {n : Nat} {bank : Denom → Nat} (h : n ≤ bank NATIVE) : ∀ d, amountOf d (us n) ≤ bank d := by
  intro d
  simp only [us, amountOf, Coin.inDenom]
  by_cases e : d = NATIVE
  · subst e; simpa using h
  · rw [if_neg (fun h => e h.symm)]; exact Nat.zero_le _

theorem run0 : Run P self hon (w0, []) := ⟨ini, w0, init0, .refl _⟩
/-- the bid hook is registered -/
def w1 : World State := { w0 with st := (srun (M.ctx w0 (qw w0)) (.addBidHook hk) s0).1 }
theorem run1 : Run P self hon (w1, []) := by
  have h : sok (M.ctx w0 (qw w0)) (.addBidHook hk) s0 = true := by decide +kernel
  have h1 := Sys.Step.sudo (S := M) w0 (.addBidHook hk) (qw w0) _ _ (fun _ _ _ => rfl) (srun_eq h)
  exact Spec.Run.step run0 h1
def hookMsg (n : Nat) : Msg := .hook hk ⟨.bid, some .create, coll, some 1, n, bob, none⟩
/-- bob bids 60 -/
def w2 : World State := at_ w1 bob (us 60) bidMsg
theorem run2 : Run P self hon (w2, [hookMsg 60]) :=
  call2 run1 (by decide) (us_only (by decide +kernel)) (by decide +kernel) (by decide +kernel)
theorem run2' : Run P self hon (w2, []) := Spec.Run.step run2 (Sys.Step.ret (S := M) w2 _ [] trivial)
/-- carol's collection bid of 50 -/
def w3 : World State := at_ w2 carol (us 50) (.setCollectionBid coll (3000 * NSs) none)
theorem run3 : Run P self hon (w3, []) :=
  call2 run2' (by decide) (us_only (by decide +kernel)) (by decide +kernel) (by decide +kernel)
/-- bob raises to 70: the refund is pending -/
def w4 : World State := at_ w3 bob (us 70) bidMsg
theorem run4 : Run P self hon (w4, [.send bob (us 60), hookMsg 70]) :=
  call2 run3 (by decide) (us_only (by decide +kernel)) (by decide +kernel) (by decide +kernel)

example : w4.bank self NATIVE = 180 ∧ openBids w4.st = 120 := by decide +kernel

end Verif.V1.Sample

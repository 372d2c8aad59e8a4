/-
Marketplace v1: what is in the contract's account (C120).
-/
import Verif.Base.Ledger
import Verif.V1.PropsOrders

namespace Verif.V1
open Verif Spec

section
variable {p : Params} {me : Addr} {honest : Addr → Prop}

/-- 1 if the call hands over a token, else 0. -/
def Spec.aSale (_ : List Coin) (_ : Exec) (msgs : List Msg) : Nat := if handed msgs = [] then 0 else 1

/-- After every history, also in the middle of a call, the account holds what was there at the start, the open bids,
what is still to be paid, coins others sent without a call, and at most one unit per sale. -/
theorem C120_reserves {i : Init} {w0 w : World State} {pending : List Msg}
    {es : List (Entry Exec Sudo)} (hi : instantiate p i = .ok w0.st)
    (h : (sys p me honest).Hist (w0, []) es (w, pending)) :
    ∃ dust, dust ≤ onCalls aSale es ∧
      w.bank me ustars = w0.bank me ustars + openBids w.st + paidOut ustars pending + gifts me ustars es + dust := by
  have key := Sys.Hist.account (S := sys p me honest) (escrow := escrow) (d := ustars) (N := es.length)
    (lo := fun _ _ _ => 0) (hi := aSale) (P := fun _ s => Reach p me s) ?_ ?_ ?_ h (Nat.le_refl _) ?_
  · obtain ⟨_, h1, h2⟩ := key
    obtain ⟨_, e2, e3⟩ := init_empty hi
    have h0 : escrow w0.st ustars = 0 := by
      simp only [escrow, openBids_eq, e2, e3, AMap.sum_empty, Nat.add_zero, nat_zero]
    have he : escrow w.st ustars = openBids w.st := by rw [ustars_eq]; exact nat_native _
    have hz : onCalls (κ := Exec) (υ := Sudo) (fun _ _ _ => 0) es = 0 := by
      clear h h1 h2
      induction es with
      | nil => rfl
      | cons e es ih => cases e <;> simp only [onCalls, ih]
    rw [← outflow_eq, ← he]
    have hs : (sys p me honest).self = me := rfl
    simp only [h0, outflow_nil, hs, hz] at *
    exact ⟨w.bank me ustars - (w0.bank me ustars + escrow w.st ustars + outflow ustars pending + gifts me ustars es), by omega, by omega⟩
  · intro n ctx sender funds m s s' msgs _ hself hne hr hex
    obtain ⟨dust, h1, h2, h3⟩ := conservation (execute_eff hex)
    have h3 := h3 ustars
    have h4 : nat ustars dust = dust := by rw [ustars_eq]; exact nat_native _
    have h5 : dust ≤ aSale funds m msgs := by
      unfold aSale; split
      case isTrue h => rw [h2 h]; omega
      · exact h1
    rw [outflow_eq]
    exact ⟨hr.step (.call hself hne hex), by omega, by omega⟩
  · intro n ctx m s s' msgs hself hr hex
    refine ⟨hr.step (.sudo hself hex), ?_⟩
    obtain ⟨e, rfl⟩ := sudo_eff (ctx := ctx) hex
    obtain ⟨_, e2, e3, _⟩ := e.orders
    simp only [escrow, openBids_eq, e2, e3, outflow_nil]
    omega
  · exact fun _ _ h => h
  · exact ⟨i, _, hi, .refl _⟩

theorem nothing_pending {w0 : World State} {x : World State × List Msg} {es : List (Entry Exec Sudo)}
    (h : (sys p me honest).Hist (w0, []) es x) {d : Denom} (hd : d ≠ ustars) : outflow d x.2 = 0 := by
  induction h with
  | nil => rfl
  | cons _ hdid ih =>
    cases hdid with
    | call w stack sender funds m q s' msgs hctl hne hfunds hq hex =>
      obtain ⟨_, _, _, _, h4⟩ := C93_accounting hex
      rw [outflow_append, outflow_eq, (h4 d hd).1]
      simpa using ih
    | sudo w m q s' msgs hq hex =>
      obtain ⟨_, rfl⟩ := sudo_eff (ctx := (sys p me honest).ctx w q) hex
      rfl
    | env => exact ih
    | block => exact ih
    | _ => simp only [outflow_cons] at ih ⊢; omega

/-- Coins of other denoms are only there because somebody sent them without a call. -/
theorem C120_other {i : Init} {w0 w : World State} {pending : List Msg}
    {es : List (Entry Exec Sudo)} (hi : instantiate p i = .ok w0.st)
    (h : (sys p me honest).Hist (w0, []) es (w, pending)) {d : Denom} (hd : d ≠ ustars) :
    w.bank me d = w0.bank me d + gifts me d es := by
  have key := Sys.Hist.account (S := sys p me honest) (escrow := escrow) (d := d) (N := es.length)
    (lo := fun _ _ _ => 0) (hi := fun _ _ _ => 0) (P := fun _ s => Reach p me s) ?_ ?_ ?_ h (Nat.le_refl _) ?_
  · obtain ⟨_, h1, h2⟩ := key
    have he : ∀ s : State, escrow s d = 0 := by intro s; rw [ustars_eq] at hd; exact if_neg hd
    have hz : onCalls (κ := Exec) (υ := Sudo) (fun _ _ _ => 0) es = 0 := by
      clear h h1 h2
      induction es with
      | nil => rfl
      | cons e es ih => cases e <;> simp only [onCalls, ih]
    have hs : (sys p me honest).self = me := rfl
    simp only [he, outflow_nil, hs, hz, nothing_pending h hd] at *
    omega
  · intro n ctx sender funds m s s' msgs _ hself hne hr hex
    obtain ⟨dust, h1, h2, h3⟩ := conservation (execute_eff hex)
    have h3 := h3 d
    have h4 : nat d dust = 0 := by rw [ustars_eq] at hd; exact if_neg hd
    rw [outflow_eq]
    exact ⟨hr.step (.call hself hne hex), by omega, by omega⟩
  · intro n ctx m s s' msgs hself hr hex
    refine ⟨hr.step (.sudo hself hex), ?_⟩
    obtain ⟨e, rfl⟩ := sudo_eff (ctx := ctx) hex
    obtain ⟨_, e2, e3, _⟩ := e.orders
    simp only [escrow, openBids_eq, e2, e3, outflow_nil]
    omega
  · exact fun _ _ h => h
  · exact ⟨i, _, hi, .refl _⟩

namespace Sample
theorem run_eq2 {c : Ctx} {sender : Addr} {funds : List Coin} {m : Exec} {s : State} (h : ok c sender funds m s = true) :
    M.exec c sender funds m s = .ok ((run c sender funds m s).1, (run c sender funds m s).2) := run_eq h

/-- alice lists token 1 for 101 -/
abbrev l1 := run (M.ctx w0 (qw w0)) alice (us 3) askMsg w0.st
def lw1 : World State := at_ w0 alice (us 3) askMsg
/-- the listing fee is burnt -/
def lw2 : World State := { lw1 with bank := takeFunds lw1.bank self (us 3) }
/-- carol buys: a finder is named -/
abbrev l3 := run (M.ctx lw2 (qw lw2)) carol (us 101) buyMsg lw2.st
def lw3 : World State := at_ lw2 carol (us 101) buyMsg
abbrev le3 : List (Entry Exec Sudo) := [.call carol (us 101) buyMsg l3.2, .other, .call alice (us 3) askMsg l1.2]

theorem hist3 : M.Hist (w0, []) le3 (lw3, l3.2) := by
  have hok : ok (M.ctx w0 (qw w0)) alice (us 3) askMsg w0.st = true := by decide +kernel
  have h1 := Sys.Did.call (S := M) w0 [] alice (us 3) askMsg (qw w0) l1.1 l1.2 trivial
    (by decide) (us_only (by decide +kernel)) (fun _ _ _ => rfl) (run_eq2 hok)
  have hm : l1.2 = [.fairBurn (us 3)] := by decide +kernel
  have h2 := Sys.Did.fairBurn (S := M) lw1 (us 3) [] (us_only (by decide +kernel))
  have hok3 : ok (M.ctx lw2 (qw lw2)) carol (us 101) buyMsg lw2.st = true := by decide +kernel
  have h3 := Sys.Did.call (S := M) lw2 [] carol (us 101) buyMsg (qw lw2) l3.1 l3.2 trivial
    (by decide) (us_only (by decide +kernel)) (fun _ _ _ => rfl) (run_eq2 hok3)
  rw [List.append_nil] at h1 h3
  refine .cons (.cons (.cons .nil h1) ?_) h3
  rw [hm]
  exact h2

example := C120_reserves init0 hist3
/-- one unit stays -/
example : lw3.bank self ustars = 101 ∧ openBids lw3.st = 0 ∧ paidOut ustars l3.2 = 100 ∧ onCalls aSale le3 = 1 := by decide +kernel
example := C120_other init0 hist3 (d := [1]) (by decide +kernel)
end Sample

end
end Verif.V1

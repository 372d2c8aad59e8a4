/-
Reserve auction: what is in the contract's account (C119).
-/
import Verif.Base.Ledger
import Verif.Auction.PropsFunds

namespace Verif.Auction
open Verif Spec

section
variable {p : Params} {me : Addr} {honest : Addr → Prop}

/-- What a call attaches beyond the fee it pays, if it is `CreateAuction`. -/
def Spec.excess (d : Denom) (funds : List Coin) : Exec → List Msg → Nat
  | .create _ _ _ _ _, msgs => amountOf d funds - paidOut d msgs
  | _, _ => 0

/-- After every history, also in the middle of a call, the account holds what was there at the start, the standing high
bids, what is still to be paid, coins others sent without a call, and what creators of auctions paid beyond the fee:
nothing else. -/
theorem C119_reserves (hl : LibOk p.lib) {c : Config} {mins : List Coin} {w0 w : World State} {pending : List Msg}
    {es : List (Entry Exec Sudo)} (hi : instantiate p c mins = .ok w0.st)
    (h : (sys p me honest).Hist (w0, []) es (w, pending)) (d : Denom) :
    w.bank me d = w0.bank me d + amountOf d (highBids w.st) + paidOut d pending + gifts me d es + onCalls (excess d) es := by
  have key := Sys.Hist.account (S := sys p me honest) (escrow := escrow) (d := d) (N := es.length)
    (lo := excess d) (hi := excess d) (P := fun _ s => Reach p me s) ?_ ?_ ?_ h (Nat.le_refl _) ?_
  · obtain ⟨_, h1, h2⟩ := key
    have h0 : escrow w0.st d = 0 := by simp only [escrow, init_empty hi, AMap.sum_empty]
    rw [← escrow_eq, ← outflow_eq]
    have hs : (sys p me honest).self = me := rfl
    simp only [h0, outflow_nil, hs] at *
    omega
  · intro n ctx sender funds m s s' msgs _ hself hne hr hex
    have h1 := conservation hl hr.wf (execute_eff hex) d
    have h2 : kept s funds m d = excess d funds m msgs := by
      cases m with
      | create coll tok r dur rec =>
        obtain ⟨hc, _, _⟩ := C42_partial hex
        have := hc d
        simp only [kept, excess, this.2, amountOf_singleton]
        split
        case isTrue h0 => simp [Coin.inDenom, h0]
        · rfl
      | _ => rfl
    rw [outflow_eq]
    exact ⟨hr.step (.call hself hne hex), by omega, by omega⟩
  · intro n ctx m s s' msgs hself hr hex
    rw [outflow_eq]
    exact ⟨hr.step (.sudo hself hex), sudo_conservation hl hr.wf (sudo_eff hex) d⟩
  · exact fun _ _ h => h
  · exact ⟨c, mins, _, hi, .refl _⟩

namespace Sample
/-- alice creates an auction and attaches 8 instead of 5 -/
abbrev l1 := run (M.ctx w0 (qw w0)) alice [⟨ust, 8⟩] (.create coll tok ⟨ust, 100⟩ 60 none) w0.st
def lw1 : World State := at_ w0 alice [⟨ust, 8⟩] (.create coll tok ⟨ust, 100⟩ 60 none)

theorem hist1 : M.Hist (w0, []) [.call alice [⟨ust, 8⟩] (.create coll tok ⟨ust, 100⟩ 60 none) l1.2] (lw1, l1.2) := by
  have hok : ok (M.ctx w0 (qw w0)) alice [⟨ust, 8⟩] (.create coll tok ⟨ust, 100⟩ 60 none) w0.st = true := by decide +kernel
  have hx := run_eq hok
  have := Sys.Did.call (S := M) w0 [] alice [⟨ust, 8⟩] (.create coll tok ⟨ust, 100⟩ 60 none) (qw w0) l1.1 l1.2 trivial
    (by decide) (ust_only (by decide +kernel)) (fun _ _ _ => rfl) hx
  rw [List.append_nil] at this
  exact .cons .nil this

example := C119_reserves libOk init0 hist1 ust
example : lw1.bank self ust = 8 ∧ paidOut ust l1.2 = 5 ∧ amountOf ust (highBids lw1.st) = 0 ∧
    onCalls (υ := Sudo) (excess ust) [.call alice [⟨ust, 8⟩] (.create coll tok ⟨ust, 100⟩ 60 none) l1.2] = 3 := by decide +kernel
end Sample
end
end Verif.Auction

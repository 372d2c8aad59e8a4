/-
Marketplace v2: what is in the contract's account (C118).
-/
import Verif.Base.Ledger
import Verif.V2.PropsFunds

namespace Verif.V2
open Verif Spec

section
variable {p : Params} {me : Addr} {honest : Addr → Prop}

/-- Coins attached to calls that have no use for them (`Keeps`), over a whole history. -/
def Spec.strays (d : Denom) (es : List (Entry Exec Empty)) : Nat :=
  onCalls (fun funds m _ => if Keeps m then amountOf d funds else 0) es

theorem nonce_le {ctx : Ctx} {sender : Addr} {funds : List Coin} {m : Exec} {s s' : State} {msgs : List Msg}
    (hx : execute p ctx sender funds m s = .ok (s', msgs)) : s'.nonce ≤ s.nonce + 1 := by
  have hb : nextNonce s ≤ s.nonce + 1 := Nat.mod_le _ _
  cases execute_eff hx <;> simp only [afterSale_nonce, bump] <;> omega

/-- After a history of fewer than 2^64 - 1 steps, also in the middle of a call, the account holds what was there at the
start, the open bids, what is still to be paid, and what was sent to the contract for no reason: nothing else. -/
theorem C118_reserves (hlim : 1 ≤ p.maxLimit) (hinj : HashInj p) {c : Config} {w0 w : World State} {pending : List Msg}
    {es : List (Entry Exec Empty)} (hi : instantiate p c = .ok w0.st)
    (h : (sys p me honest).Hist (w0, []) es (w, pending)) (hn : es.length + 1 < 2^64) (d : Denom) :
    w.bank me d =
      w0.bank me d + amountOf d (bidCoins w.st) + paidOut d pending + gifts me d es + strays d es := by
  have key := Sys.Hist.account (S := sys p me honest) (escrow := escrow) (d := d) (N := 2^64 - 2)
    (lo := fun funds m _ => if Keeps m then amountOf d funds else 0)
    (hi := fun funds m _ => if Keeps m then amountOf d funds else 0)
    (P := fun n s => Reach p me NoWrap s ∧ s.nonce ≤ n) ?_ ?_ ?_ h (by omega) ?_
  · obtain ⟨_, h1, h2⟩ := key
    obtain ⟨_, e2, e3⟩ := init_empty hi
    have h0 : escrow w0.st d = 0 := by simp only [escrow, e2, e3, AMap.sum_empty]
    rw [← escrow_eq, ← outflow_eq]
    have hs : (sys p me honest).self = me := rfl
    simp only [h0, outflow_nil, hs, strays] at *
    omega
  · rintro n ctx sender funds m s s' msgs hlt hself hne ⟨hr, hno⟩ hex
    have hg : NoWrap s := by unfold NoWrap; omega
    have hacc := C04_account hlim hinj hr hg hex d
    rw [← escrow_eq, ← escrow_eq, ← outflow_eq] at hacc
    have := nonce_le hex
    exact ⟨⟨.call hr hg hself hne hex, by omega⟩, by omega, by omega⟩
  · intro n ctx m; exact nomatch m
  · rintro n s ⟨h1, h2⟩; exact ⟨h1, Nat.le_succ_of_le h2⟩
  · refine ⟨.init hi, ?_⟩
    unfold instantiate at hi
    simp only [bind_ok] at hi
    obtain ⟨_, _, _, _, hi⟩ := hi
    exact Nat.le_of_eq (congrArg State.nonce (Except.ok.inj hi)).symm

/-- So, if the account was empty at deployment and nobody sent coins for no reason, every coin in it between calls is
the price of an open bid. -/
theorem C118_clean (hlim : 1 ≤ p.maxLimit) (hinj : HashInj p) {c : Config} {w0 w : World State}
    {es : List (Entry Exec Empty)} (hi : instantiate p c = .ok w0.st)
    (h : (sys p me honest).Hist (w0, []) es (w, [])) (hn : es.length + 1 < 2^64) (d : Denom) (h0 : w0.bank me d = 0)
    (hg : ∀ given, .gift given ∈ es → given d = 0) (hp : ∀ cs, .paid me cs ∉ es)
    (hk : ∀ sender funds m msgs, .call sender funds m msgs ∈ es → Keeps m = true → funds = []) :
    w.bank me d = amountOf d (bidCoins w.st) := by
  rw [C118_reserves hlim hinj hi h hn d, h0]
  have h1 : gifts me d es = 0 := by
    clear h hn hk
    induction es with
    | nil => rfl
    | cons e es ih =>
      have ih := ih (fun g hm => hg g (List.mem_cons_of_mem _ hm)) (fun cs hm => hp cs (List.mem_cons_of_mem _ hm))
      cases e with
      | gift given => simp only [gifts, ih, hg given List.mem_cons_self]
      | paid to cs =>
        have : to ≠ me := fun e => hp cs (e ▸ List.mem_cons_self)
        simp only [gifts, ih, if_neg this]
      | _ => exact ih
  have h2 : strays d es = 0 := by
    clear h hn hg hp h1
    induction es with
    | nil => rfl
    | cons e es ih =>
      have ih := ih (fun a b c' d' hm => hk a b c' d' (List.mem_cons_of_mem _ hm))
      cases e with
      | call sender funds m msgs =>
        have := hk sender funds m msgs List.mem_cons_self
        simp only [strays, onCalls] at ih ⊢
        by_cases hkm : Keeps m = true
        · rw [this hkm]; simp [amountOf, ih]
        · simp [hkm, ih]
      | _ => exact ih
  rw [h1, h2]
  simp [paidOut]

namespace Sample
/-- bob bids 80 and sends 100 -/
abbrev l1 := run (M.ctx w0 (q (some alice) none)) bob [⟨ust, 100⟩] (.setBid coll tok (det 80)) w0.st
/-- the world after it -/
def lw1 : World State := { w0 with bank := moveFunds w0.bank bob self [⟨ust, 100⟩], st := l1.1 }

theorem hist1 : M.Hist (w0, []) [.call bob [⟨ust, 100⟩] (.setBid coll tok (det 80)) l1.2] (lw1, l1.2) := by
  have hok : ok (M.ctx w0 (q (some alice) none)) bob [⟨ust, 100⟩] (.setBid coll tok (det 80)) w0.st = true := by decide +kernel
  have hx := run_eq hok
  have := Sys.Did.call (S := M) w0 [] bob [⟨ust, 100⟩] (.setBid coll tok (det 80)) (q (some alice) none) l1.1 l1.2 trivial
    (by decide) ?_ ?_ hx
  · rw [List.append_nil] at this
    exact .cons .nil this
  · intro d
    simp only [amountOf, Coin.inDenom, w0]
    by_cases h : d = ust
    · subst h; decide
    · rw [if_neg (fun e => h e.symm)]; omega
  · intro c t _; rfl

/-- the world after 20 went back -/
def lw2 : World State := { lw1 with bank := moveFunds lw1.bank self bob [⟨ust, 20⟩] }

theorem hist2 : M.Hist (w0, []) [.paid bob [⟨ust, 20⟩], .call bob [⟨ust, 100⟩] (.setBid coll tok (det 80)) l1.2] (lw2, []) := by
  have hm : l1.2 = [.send bob [⟨ust, 20⟩]] := by decide +kernel
  have := hist1
  rw [hm] at this ⊢
  refine .cons this (.send lw1 bob [⟨ust, 20⟩] [] (by simp) (by simp) ?_)
  intro d
  simp only [amountOf, Coin.inDenom, lw1, moveFunds, w0]
  by_cases h : d = ust
  · subst h; decide
  · rw [if_neg (fun e => h e.symm)]; omega

example : w0.bank self ust = 0 ∧ lw2.bank self ust = 80 ∧ amountOf ust (bidCoins lw2.st) = 80 := by decide +kernel
example := C118_reserves (by decide) hashInj init0 hist1 (by decide) ust
example := C118_clean (by decide) hashInj init0 hist2 (by decide) ust (by decide) (by simp)
  (by intro cs h; simp at h; exact absurd h.1 (by decide)) (by rintro s f m ms h hk; simp at h; rw [h.2.2.1] at hk; cases hk)
end Sample

end
end Verif.V2

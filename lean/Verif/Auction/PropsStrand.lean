/-
Reserve auctions: tokens and coins that reach the contract's account without an auction or a bid: C148, C149.
-/
import Verif.Auction.PropsFunds
import Verif.Base.Strand

namespace Verif.Auction
open Verif Spec

variable {p : Params} {me : Addr} {honest : Addr → Prop}

theorem run_wf {x : World State × List Msg} (h : Run p me honest x) : WF p me x.1.st := (Spec.Run.reach h).wf

/-- The hooks of the chain leave tokens alone that are not under auction. -/
theorem untouched_sudo (hl : LibOk p.lib) {ctx : Ctx} {m : Sudo} {s s' : State} {msgs : List Msg}
    {owner : Addr → Bytes → Option Addr} (hw : WF p me s) (e : SEff p ctx s m s' msgs) :
    (sys p me honest).Untouched held owner s s' msgs := by
  intro c t _ _ hn
  cases e with
  | stop earliest s1 _ _ _ hb =>
    have hst := due_stored (ctx := ctx) hw
    refine ⟨fun hh => hn (hb.held_sub hst hh), fun to hm => ?_⟩
    obtain ⟨a, ha, e⟩ := List.mem_map.mp (hb.nft hl hm)
    have := hst.1 a ha
    rw [e] at this
    exact hn (by unfold held; rw [this]; simp)
  | begin => exact ⟨hn, fun _ hm => nomatch hm⟩
  | params => exact ⟨hn, fun _ hm => nomatch hm⟩
  | setMin => exact ⟨hn, fun _ hm => nomatch hm⟩
  | unsetMin => exact ⟨hn, fun _ hm => nomatch hm⟩

theorem stray_run (hl : LibOk p.lib) {x y : World State × List Msg} (h : Run p me honest x) {c : Addr} {t : Bytes}
    (hh : honest c) (hs : (sys p me honest).Steps x y) (ho : (sys p me honest).Stray held c t x) :
    (sys p me honest).Stray held c t y := by
  refine (Sys.Steps.inv (P := fun y => Run p me honest y ∧ (sys p me honest).Stray held c t y) ?_ hs ⟨h, ho⟩).2
  rintro a b ⟨hr, hst⟩ hab
  refine ⟨Spec.Run.step hr hab, ?_⟩
  refine Sys.stray_step (S := sys p me honest) (I := WF p me) hh ?_ ?_ (run_wf hr)
    (fun hc => (Sys.J_ctl (Spec.Run.custody hl hr) hc).1) hab hst
  · intro ctx sender funds m s s' msgs owner h1 h2 h3 h4 h5 h6
    exact (custody_exec hl h1 h2 h3 h4 h5 (execute_eff h6)).2
  · intro ctx m s s' msgs owner h1 h2 _ h3
    exact untouched_sudo hl h2 (sudo_eff h3)

/-! ### C148 -/

/-- Every token of a conforming collection that the contract owns between transactions can be got out of it again. -/
def C148_statement : Prop := ∀ (p : Params) (me : Addr) (honest : Addr → Prop), LibOk p.lib →
  ∀ w : World State, Run p me honest (w, []) → ∀ (c : Addr) (t : Bytes), honest c → w.owner c t = some me →
  ∃ w', (sys p me honest).Steps (w, []) (w', []) ∧ w'.owner c t ≠ some me

/-- A token the contract owns without an auction for it stays there through every run, whoever calls whatever: it never gets
another owner, and nobody can put it up for auction. -/
theorem C148_stray (hl : LibOk p.lib) {w : World State} (h : Run p me honest (w, [])) {c : Addr} {t : Bytes}
    (hh : honest c) (ho : w.owner c t = some me) (hn : w.st.auctions.get? (c, t) = none)
    {w' : World State} {pending : List Msg} (hs : (sys p me honest).Steps (w, []) (w', pending)) :
    w'.owner c t = some me ∧ w'.st.auctions.get? (c, t) = none := by
  obtain ⟨h1, h2, _⟩ := stray_run hl h hh hs ⟨ho, fun hx => hx hn, fun _ hm => nomatch hm⟩
  exact ⟨h1, Classical.not_not.mp h2⟩

namespace Sample
/-- alice sends the token to the contract instead of creating an auction -/
def lost : World State := { w0 with owner := setOwner w0.owner coll tok self }

theorem run_lost : Run P self hon (lost, []) :=
  Spec.Run.step run0 (Sys.Step.env (S := M) w0 lost [] trivial ⟨rfl, rfl, rfl, fun _ => Nat.le_refl _, by
    intro c t _ h
    by_cases e : c = coll ∧ t = tok
    · show setOwner w0.owner coll tok self c t = _
      simp only [setOwner, e, and_self, if_true]; rfl
    · have : setOwner w0.owner coll tok self c t = w0.owner c t := by simp [setOwner, e]
      exact this.trans h⟩)
end Sample

/-- The code offers no way to return such a token. -/
theorem C148_violated : ¬ C148_statement := by
  intro h
  obtain ⟨w', hs, hne⟩ := h Sample.P Sample.self Sample.hon Sample.libOk Sample.lost Sample.run_lost Sample.coll
    Sample.tok trivial (by decide +kernel)
  exact hne (C148_stray Sample.libOk Sample.run_lost trivial (by decide +kernel) (by decide +kernel) hs).1

/-- What holds: a token under auction without bids can be got out by the seller. (With a bid: C36, C121.) Missing: tokens
without an auction. -/
theorem C148_partial (hl : LibOk p.lib) {w : World State} (h : Run p me honest (w, [])) {c : Addr} {t : Bytes} {a : Auction}
    (ha : w.st.auctions.get? (c, t) = some a) (hh : honest c) (hb : a.highBid = none)
    (q : Queries) (hq : (sys p me honest).queriesOk w q) :
    ∃ w', (sys p me honest).Steps (w, []) (w', []) ∧ w'.owner c t ≠ some me := by
  obtain ⟨w', hs, _, _, ho, _⟩ := C63_cancel hl h ha hh hb q hq
  refine ⟨w', hs, ?_⟩
  rw [ho]
  intro e
  cases e
  exact ((run_wf h).auctions _ _ ha).seller rfl

example := C148_partial Sample.libOk Sample.run3 (c := Sample.coll) (t := Sample.tok)
  (a := ⟨Sample.coll, Sample.tok, Sample.alice, ⟨Sample.ust, 100⟩, 60, none, none, none, none⟩) (by decide +kernel) trivial rfl
  (Sample.qw Sample.w3) (fun _ _ _ => rfl)

/-- The contract itself never sends a token to its own account but to open an auction of it. So tokens without an auction come
from outside only. -/
theorem C148_partial_custody (hl : LibOk p.lib) {ctx : Ctx} {sender : Addr} {funds : List Coin} {m : Exec} {s s' : State} {msgs : List Msg}
    (hr : Reach p me s) (hself : ctx.self = me) (hne : sender ≠ me) (h : execute p ctx sender funds m s = .ok (s', msgs))
    {c : Addr} {t : Bytes} (hm : .nft c t me ∈ msgs) :
    s.auctions.get? (c, t) = none ∧ ∃ a, s'.auctions.get? (c, t) = some a ∧ a.seller = sender := by
  have hw := hr.wf
  cases execute_eff h with
  | create coll tok r dur rec min hv hrec hown happ hno =>
    rw [List.mem_append, List.mem_singleton] at hm
    rcases hm with hm | hm
    · exact absurd rfl (pay_no_nft (feeMsgs_pay _ _ hm))
    · cases hm
      exact ⟨hno, _, AMap.get?_insert_self _ _ _, rfl⟩
  | reserve => cases hm
  | cancel coll tok a hv hf ha hs hb =>
    rw [List.mem_singleton] at hm; cases hm
    exact absurd rfl (hw.auctions _ _ ha).seller
  | bid1 => cases hm
  | bid2 => rw [List.mem_singleton] at hm; cases hm
  | settle coll tok a _ _ hv hf ha hset =>
    cases hset with
    | postponed => cases hm
    | sold e b roy pay he hle hout hh hroy hpay =>
      rw [List.mem_append, List.mem_singleton] at hm
      rcases hm with hm | hm
      · exact absurd rfl (pay_no_nft (hl.pays _ _ _ _ _ _ hpay _ hm))
      · cases hm
        exact absurd rfl (((hw.auctions _ _ ha).coin _ hh).2.2.2)

example := C148_partial_custody (p := Sample.P) (me := Sample.self) Sample.libOk (Spec.Run.reach Sample.run0)
  (ctx := Sample.M.ctx Sample.w0 (Sample.qw Sample.w0)) (sender := Sample.alice) (funds := [⟨Sample.ust, 5⟩])
  (m := .create Sample.coll Sample.tok ⟨Sample.ust, 100⟩ 60 none) rfl (by decide) (Sample.run_eq (by decide +kernel))
  (c := Sample.coll) (t := Sample.tok) (by decide +kernel)

/-! ### C149 -/

/-- Coins in the contract's account beyond the standing high bids can be got out again. -/
def C149_statement : Prop := ∀ (p : Params) (me : Addr) (honest : Addr → Prop), LibOk p.lib →
  ∀ w : World State, Run p me honest (w, []) → ∀ d : Denom, amountOf d (highBids w.st) < w.bank me d →
  ∃ w', (sys p me honest).Steps (w, []) (w', []) ∧
    w'.bank me d - amountOf d (highBids w'.st) < w.bank me d - amountOf d (highBids w.st)

/-- What the account holds beyond the high bids and the payments still to be made never gets less, in any denom, through any
run. -/
theorem C149_surplus (hl : LibOk p.lib) {w w' : World State} {pending pending' : List Msg}
    (h : Run p me honest (w, pending)) (hs : (sys p me honest).Steps (w, pending) (w', pending')) (d : Denom) :
    w.bank me d - (amountOf d (highBids w.st) + paidOut d pending) ≤
      w'.bank me d - (amountOf d (highBids w'.st) + paidOut d pending') := by
  have hsol := Spec.Run.solvent hl h
  have h0 : (sys p me honest).Solvent (fun s e => escrow s e + (w.bank me e - (escrow w.st e + outflow e pending))) (w, pending) := by
    intro e
    have := hsol e
    have e1 : (sys p me honest).self = me := rfl
    rw [e1] at this ⊢
    simp only at this ⊢
    omega
  have key := (Sys.Steps.inv (P := fun y => WF p me y.1.st ∧ (sys p me honest).Solvent
    (fun s e => escrow s e + (w.bank me e - (escrow w.st e + outflow e pending))) y) ?_ hs ⟨run_wf h, h0⟩).2 d
  · have e1 : (sys p me honest).self = me := rfl
    rw [e1] at key
    simp only [escrow_eq, outflow_eq] at key
    omega
  · rintro a b ⟨hw, hsol⟩ hab
    constructor
    · refine Sys.state_inv_step (S := sys p me honest) (I := WF p me) ?_ ?_ hw hab
      · intro ctx sender funds m s s' msgs h1 h2 h3 h4
        exact h3.exec h2 (execute_eff h4)
      · intro ctx m s s' msgs h1 h3 h4
        exact h3.sudo (sudo_eff h4)
    · refine Sys.surplus_step (S := sys p me honest) (I := WF p me) ?_ ?_ hw hsol hab
      · intro ctx sender funds m s s' msgs _ _ h3 h4 d
        have := conservation hl h3 (execute_eff h4) d
        rw [outflow_eq]; omega
      · intro ctx m s s' msgs _ h3 h4 d
        have := sudo_conservation hl h3 (sudo_eff h4) d
        rw [outflow_eq]; omega

namespace Sample
/-- somebody sends 7 units to the contract -/
def gifted : World State := { w0 with bank := fun a d => if a = self ∧ d = ust then 7 else w0.bank a d }

theorem run_gifted : Run P self hon (gifted, []) :=
  Spec.Run.step run0 (Sys.Step.env (S := M) w0 gifted [] trivial ⟨rfl, rfl, rfl, by
    intro d
    by_cases e : d = ust
    · subst e; decide +kernel
    · show w0.bank self d ≤ (if self = self ∧ d = ust then 7 else w0.bank self d)
      rw [if_neg (fun h => e h.2)]; exact Nat.le_refl _, fun _ _ _ h => h⟩)
end Sample

example := C149_surplus Sample.libOk Sample.run_gifted (.refl _) Sample.ust

/-- The code offers no way to return such coins. -/
theorem C149_violated : ¬ C149_statement := by
  intro h
  obtain ⟨w', hs, hlt⟩ := h Sample.P Sample.self Sample.hon Sample.libOk Sample.gifted Sample.run_gifted Sample.ust
    (by decide +kernel)
  have := C149_surplus Sample.libOk Sample.run_gifted hs Sample.ust
  simp only [paidOut] at this
  omega

end Verif.Auction

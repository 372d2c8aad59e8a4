/-
Marketplace v2: tokens and coins that reach the contract's account without an order: C148, C149.
-/
import Verif.V2.PropsFunds
import Verif.Base.Strand

namespace Verif.V2
open Verif Spec

variable {p : Params} {me : Addr} {honest : Addr → Prop}

theorem run_custody (hlim : 1 ≤ p.maxLimit) {x : World State × List Msg} (h : Run p me honest x) :
    WF p x.1.st ∧ (sys p me honest).J held x.1.st x.1.owner x.2 := by
  obtain ⟨c, w0, hi, hs⟩ := h
  have h0 : WF p w0.st ∧ (sys p me honest).J held w0.st w0.owner [] := by
    refine ⟨WF.init hi, ?_⟩
    rintro c t _ ⟨id, a, h, _⟩
    rw [(init_empty hi).1, empty_get] at h; cases h
  refine Sys.Steps.inv (P := fun y => WF p y.1.st ∧ (sys p me honest).J held y.1.st y.1.owner y.2) ?_ hs h0
  rintro x y ⟨hw, hJ⟩ hxy
  constructor
  · refine Sys.state_inv_step (S := sys p me honest) (I := WF p) ?_ ?_ hw hxy
    · intro ctx sender funds m s s' msgs _ _ h3 h4
      exact h3.eff (execute_eff h4)
    · intro ctx m; exact nomatch m
  · refine Sys.custody_step (S := sys p me honest) (held := held) (I := WF p) ?_ ?_ hw hJ hxy
    · intro ctx sender funds m s s' msgs owner h1 h2 h3 h4 h5 h6
      exact custody_exec hlim h1 h2 h3 h4 h5 (execute_eff h6)
    · intro ctx m; exact nomatch m

theorem stray_run (hlim : 1 ≤ p.maxLimit) {x y : World State × List Msg} (h : Run p me honest x) {c : Addr} {t : Bytes}
    (hh : honest c) (hs : (sys p me honest).Steps x y) (ho : (sys p me honest).Stray held c t x) :
    (sys p me honest).Stray held c t y := by
  refine (Sys.Steps.inv (P := fun y => Run p me honest y ∧ (sys p me honest).Stray held c t y) ?_ hs ⟨h, ho⟩).2
  rintro a b ⟨hr, hst⟩ hab
  refine ⟨Spec.Run.step hr hab, ?_⟩
  obtain ⟨hw, hJ⟩ := run_custody hlim hr
  refine Sys.stray_step (S := sys p me honest) (I := WF p) hh ?_ ?_ hw (fun hc => (Sys.J_ctl hJ hc).1) hab hst
  · intro ctx sender funds m s s' msgs owner h1 h2 h3 h4 h5 h6
    exact (custody_exec hlim h1 h2 h3 h4 h5 (execute_eff h6)).2
  · intro ctx m; exact nomatch m

/-! ### C148 -/

/-- Every token of a conforming collection that the contract owns between transactions can be got out of it again. -/
def C148_statement : Prop := ∀ (p : Params) (me : Addr) (honest : Addr → Prop), 1 ≤ p.maxLimit → HashInj p →
  ∀ w : World State, Run p me honest (w, []) → ∀ (c : Addr) (t : Bytes), honest c → w.owner c t = some me →
  ∃ w', (sys p me honest).Steps (w, []) (w', []) ∧ w'.owner c t ≠ some me

/-- A token the contract owns without a listing for it stays there through every run, whoever calls whatever: it never gets
another owner, and nobody can list it. -/
theorem C148_stray (hlim : 1 ≤ p.maxLimit) {w : World State} (h : Run p me honest (w, [])) {c : Addr} {t : Bytes}
    (hh : honest c) (ho : w.owner c t = some me)
    (hn : ∀ id a, w.st.asks.get? id = some a → ¬ (a.collection = c ∧ a.tokenId = t))
    {w' : World State} {pending : List Msg} (hs : (sys p me honest).Steps (w, []) (w', pending)) :
    w'.owner c t = some me ∧ ∀ id a, w'.st.asks.get? id = some a → ¬ (a.collection = c ∧ a.tokenId = t) := by
  obtain ⟨h1, h2, _⟩ := stray_run hlim h hh hs ⟨ho, fun ⟨id, a, ha, e⟩ => hn id a ha e, fun _ hm => nomatch hm⟩
  exact ⟨h1, fun id a ha e => h2 ⟨id, a, ha, e⟩⟩

namespace Sample
/-- alice sends the token to the contract instead of listing it -/
def lost : World State := { w0 with owner := setOwner w0.owner coll tok self }

theorem run_lost : Run P self hon (lost, []) :=
  Spec.Run.step run0 (Sys.Step.env (S := M) w0 lost [] trivial ⟨rfl, rfl, rfl, fun _ => Nat.le_refl _, by
    intro c t _ h
    by_cases e : c = coll ∧ t = tok
    · show setOwner w0.owner coll tok self c t = _
      simp only [setOwner, e, and_self, if_true]; rfl
    · have : setOwner w0.owner coll tok self c t = w0.owner c t := by simp [setOwner, e]
      exact this.trans h⟩)

theorem lost_unlisted : ∀ id a, lost.st.asks.get? id = some a → ¬ (a.collection = coll ∧ a.tokenId = tok) := by
  intro id a h
  have e : lost.st.asks = .empty := (init_empty init0).1
  rw [e, empty_get] at h; cases h
end Sample

/-- The code offers no way to return such a token. -/
theorem C148_violated : ¬ C148_statement := by
  intro h
  obtain ⟨w', hs, hne⟩ := h Sample.P Sample.self Sample.hon (by decide) Sample.hashInj Sample.lost Sample.run_lost Sample.coll
    Sample.tok trivial (by decide +kernel)
  exact hne (C148_stray (by decide) Sample.run_lost trivial (by decide +kernel) Sample.lost_unlisted hs).1

/-- What holds: a token that is listed can be got out by the creator of the listing, unless the listing names the contract
itself as the recipient. Missing: tokens that are not listed. -/
theorem C148_partial (hlim : 1 ≤ p.maxLimit) {w : World State} (h : Run p me honest (w, []))
    {id : Bytes} {a : Ask} (ha : w.st.asks.get? id = some a) (hh : honest a.collection) (hr : a.details.recipient ≠ some me)
    (q : Queries) (hq : (sys p me honest).queriesOk w q) :
    ∃ w', (sys p me honest).Steps (w, []) (w', []) ∧ w'.owner a.collection a.tokenId ≠ some me := by
  obtain ⟨s', _, _, _, _, w', hs, _, _, ho, _⟩ := C08_withdraw_ask hlim h ha hh q hq
  refine ⟨w', hs, ?_⟩
  rw [ho]
  cases e : a.details.recipient with
  | none =>
    rw [Option.getD_none]
    intro e
    cases e
    exact (Spec.Reach.cre (Spec.Run.reach h)).1 id a ha rfl
  | some r =>
    rw [Option.getD_some]
    intro e'
    exact hr (by rw [e]; exact e')

example := C148_partial (by decide) Sample.runw6 (id := Sample.aid) (a := Ask.new Sample.P Sample.alice Sample.coll Sample.tok (Sample.det 100))
  (by decide +kernel) trivial (by decide) (Sample.q (some Sample.self) none) (fun c t _ => Sample.w5_owner c t)

/-- A seller whose listing names the contract as the recipient and who withdraws it loses the token for good. -/
theorem C148_self (hlim : 1 ≤ p.maxLimit) {w : World State} (h : Run p me honest (w, []))
    {id : Bytes} {a : Ask} (ha : w.st.asks.get? id = some a) (hh : honest a.collection) (hr : a.details.recipient = some me)
    (q : Queries) (hq : (sys p me honest).queriesOk w q) :
    ∃ s' w', execute p ((sys p me honest).ctx w q) a.creator [] (.removeAsk id) w.st =
        .ok (s', [.nft a.collection a.tokenId me]) ∧
      (sys p me honest).Steps (w, []) (w', []) ∧ w'.st = s' ∧
      ∀ w'' pending, (sys p me honest).Steps (w', []) (w'', pending) → w''.owner a.collection a.tokenId = some me := by
  obtain ⟨s', hx, _, hg, hoth, w', hs, hst, _, ho, _⟩ := C08_withdraw_ask hlim h ha hh q hq
  rw [hr, Option.getD_some] at hx ho
  refine ⟨s', w', hx, hs, hst, fun w'' pending hs' => (C148_stray hlim ?_ hh ho ?_ hs').1⟩
  · obtain ⟨c, w0, hi, h0⟩ := h
    exact ⟨c, w0, hi, h0.trans hs⟩
  · rintro id' a' ha' ⟨e1, e2⟩
    rw [hst] at ha'
    by_cases e : id' = id
    · rw [e, hg] at ha'; cases ha'
    · rw [hoth id' e] at ha'
      have hw := Spec.Reach.wf (Spec.Run.reach h)
      have h1 := (hw.ask ha').2.1
      have h2 := (hw.ask ha).2.1
      rw [e1, e2, ← h2] at h1
      exact e h1

namespace Sample
/-- alice lists the token and names the contract as the recipient -/
def detSelf : Details := { det 100 with recipient := some self }
def v2w : World State := at_ w1 (some alice) alice [⟨ust, 5⟩] (.setAsk coll tok detSelf)
theorem runv2 : Run P self hon (v2w, [.send feeMgr [⟨ust, 5⟩], .nft coll tok self]) :=
  call2 runw1 (by decide) (ust_only (by decide +kernel)) (fun _ _ => rfl) (by decide +kernel) (by decide +kernel)
def v3w : World State := { v2w with bank := moveFunds v2w.bank self feeMgr [⟨ust, 5⟩] }
theorem runv3 : Run P self hon (v3w, [.nft coll tok self]) :=
  Spec.Run.step runv2 (Sys.Step.send (S := M) v2w feeMgr _ _ (by simp) (by simp) (ust_only (by decide +kernel)))
def v4w : World State := { v3w with owner := setOwner v3w.owner coll tok self }
theorem runv4 : Run P self hon (v4w, []) :=
  Spec.Run.step runv3 (Sys.Step.nft (S := M) v3w coll tok self [] alice trivial (by decide +kernel) (Or.inr rfl))
end Sample

example := C148_self (by decide) Sample.runv4 (id := Sample.aid)
  (a := Ask.new Sample.P Sample.alice Sample.coll Sample.tok Sample.detSelf) (by decide +kernel) trivial rfl
  (Sample.q (some Sample.self) none) (fun c t _ => by
    simp only [Sample.q, Sample.v4w, Sample.v3w, Sample.v2w, Sample.w1, Sample.at_, Sample.w0, setOwner]
    split <;> simp [*])

/-! ### C149 -/

/-- Coins in the contract's account beyond the open bids can be got out again. -/
def C149_statement : Prop := ∀ (p : Params) (me : Addr) (honest : Addr → Prop), 1 ≤ p.maxLimit → HashInj p →
  ∀ w : World State, Run p me honest (w, []) → ∀ d : Denom, amountOf d (bidCoins w.st) < w.bank me d →
  ∃ w', (sys p me honest).Steps (w, []) (w', []) ∧
    w'.bank me d - amountOf d (bidCoins w'.st) < w.bank me d - amountOf d (bidCoins w.st)

/-- What the account holds beyond the open bids and the payments still to be made never gets less, in any denom, through any
run. -/
theorem C149_surplus (hlim : 1 ≤ p.maxLimit) {w w' : World State} {pending pending' : List Msg}
    (h : Run p me honest (w, pending)) (hs : (sys p me honest).Steps (w, pending) (w', pending')) (d : Denom) :
    w.bank me d - (amountOf d (bidCoins w.st) + paidOut d pending) ≤
      w'.bank me d - (amountOf d (bidCoins w'.st) + paidOut d pending') := by
  have hsol := Spec.Run.solvent hlim h
  have h0 : (sys p me honest).Solvent (fun s e => escrow s e + (w.bank me e - (escrow w.st e + outflow e pending))) (w, pending) := by
    intro e
    have := hsol e
    have e1 : (sys p me honest).self = me := rfl
    rw [e1] at this ⊢
    simp only at this ⊢
    omega
  have hw := (run_custody hlim h).1
  have key := (Sys.Steps.inv (P := fun y => WF p y.1.st ∧ (sys p me honest).Solvent
    (fun s e => escrow s e + (w.bank me e - (escrow w.st e + outflow e pending))) y) ?_ hs ⟨hw, h0⟩).2 d
  · have e1 : (sys p me honest).self = me := rfl
    rw [e1] at key
    simp only [escrow_eq, outflow_eq] at key
    omega
  · rintro a b ⟨hw, hsol⟩ hab
    constructor
    · refine Sys.state_inv_step (S := sys p me honest) (I := WF p) ?_ ?_ hw hab
      · intro ctx sender funds m s s' msgs _ _ h3 h4
        exact h3.eff (execute_eff h4)
      · intro ctx m; exact nomatch m
    · refine Sys.surplus_step (S := sys p me honest) (I := WF p) ?_ ?_ hw hsol hab
      · intro ctx sender funds m s s' msgs _ _ h3 h4 d
        have := conservation h3 hlim (execute_eff h4) d
        omega
      · intro ctx m; exact nomatch m

namespace Sample
/-- somebody sends 7 units to the contract -/
def gifted : World State := { w0 with bank := fun a d => if a = self ∧ d = ust then 7 else w0.bank a d }

theorem run_gifted : Run P self hon (gifted, []) :=
  Spec.Run.step run0 (Sys.Step.env (S := M) w0 gifted [] trivial ⟨rfl, rfl, rfl, by
    intro d
    by_cases e : d = ust
    · subst e; decide +kernel
    · show w0.bank self d ≤ (if self = self ∧ d = ust then 7 else w0.bank self d)
      rw [if_neg (fun h => e h.2)]; exact Nat.le_refl _, fun _ _ _ h => h⟩)
end Sample

example := C149_surplus (by decide) Sample.run_gifted (.refl _) Sample.ust

/-- The code offers no way to return such coins. -/
theorem C149_violated : ¬ C149_statement := by
  intro h
  obtain ⟨w', hs, hlt⟩ := h Sample.P Sample.self Sample.hon (by decide) Sample.hashInj Sample.gifted Sample.run_gifted Sample.ust
    (by decide +kernel)
  have := C149_surplus (by decide) Sample.run_gifted hs Sample.ust
  simp only [paidOut] at this
  omega

/-- What holds: what is owed can be got out; the creator of any open bid can get its price. Missing: the coins beyond the open
bids. -/
theorem C149_partial (hlim : 1 ≤ p.maxLimit) {w : World State} (h : Run p me honest (w, []))
    {id : Bytes} {b : Bid} (hb : w.st.bids.get? id = some b) (q : Queries) (hq : (sys p me honest).queriesOk w q) :
    ∃ w', (sys p me honest).Steps (w, []) (w', []) ∧
      ∀ d, w'.bank b.creator d = w.bank b.creator d + amountOf d [b.details.price] := by
  obtain ⟨_, _, _, _, _, w', hs, _, hbk⟩ := C06_withdraw_bid hlim h hb q hq
  exact ⟨w', hs, hbk⟩

example := C149_partial (by decide) Sample.runw6 (id := Sample.bid) (b := Bid.new Sample.P Sample.bob Sample.coll Sample.tok (Sample.det 80) 7 1)
  (by decide +kernel) (Sample.q (some Sample.self) none) (fun c t _ => Sample.w5_owner c t)

end Verif.V2

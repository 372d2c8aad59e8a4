/-
Marketplace v1: tokens and coins that reach the contract's account without an order: C148, C149.
-/
import Verif.V1.PropsSale
import Verif.V1.PropsFunds
import Verif.Base.Strand

namespace Verif.V1
open Verif Spec

variable {p : Params} {me : Addr} {honest : Addr → Prop}

theorem mem_handed {ms : List Msg} {c : Addr} {t : Bytes} {to : Addr} (h : .nft c t to ∈ ms) : (c, t, to) ∈ handed ms := by
  induction ms with
  | nil => cases h
  | cons m ms ih =>
    rcases List.mem_cons.mp h with rfl | h1
    · exact List.mem_cons_self
    · have := ih h1
      cases m with
      | nft => exact List.mem_cons_of_mem _ this
      | _ => exact this

/-- No token is ever kept by this contract. -/
def noneHeld (_ : State) (_ : Addr) (_ : Bytes) : Prop := False

theorem stray_run {x y : World State × List Msg} (h : Run p me honest x) {c : Addr} {t : Bytes}
    (hh : honest c) (hs : (sys p me honest).Steps x y) (ho : (sys p me honest).Stray noneHeld c t x) :
    (sys p me honest).Stray noneHeld c t y := by
  refine (Sys.Steps.inv (P := fun y => Run p me honest y ∧ (sys p me honest).Stray noneHeld c t y) ?_ hs ⟨h, ho⟩).2
  rintro a b ⟨hr, hst⟩ hab
  refine ⟨Spec.Run.step hr hab, ?_⟩
  refine Sys.stray_step (S := sys p me honest) (I := Reach p me) hh ?_ ?_ (Spec.Run.reach hr)
    (fun _ _ _ _ hx => hx.elim) hab hst
  · intro ctx sender funds m s s' msgs owner h1 h2 h3 h4 _ h6 c t hc ho _
    refine ⟨id, fun to hm => ?_⟩
    have hm' := mem_handed hm
    obtain ⟨T, _, e, hown, _, hcase⟩ := C49_consent h3 h6 (fun e => by rw [e] at hm'; cases hm')
    rw [e, List.mem_singleton] at hm'
    cases hm'
    rw [h4 _ _ hc, ho] at hown
    have hme : T.seller = me := (Option.some.inj hown).symm
    rcases hcase with ⟨e, _⟩ | ⟨e, _⟩ | ⟨_, _, _, a, ha, _, _, _, _, e⟩
    · exact h2 (e.symm.trans hme)
    · exact h2 (e.symm.trans hme)
    · exact (h3.wf.asks _ _ ha).seller (e.trans hme)
  · intro ctx m s s' msgs owner _ _ _ h3 c t _ _ _
    obtain ⟨_, rfl⟩ := sudo_eff (ctx := ctx) h3
    exact ⟨id, fun _ hm => nomatch hm⟩

/-! ### C148 -/

/-- Every token of a conforming collection that the contract owns between transactions can be got out of it again. -/
def C148_statement : Prop := ∀ (p : Params) (me : Addr) (honest : Addr → Prop),
  ∀ w : World State, Run p me honest (w, []) → ∀ (c : Addr) (t : Bytes), honest c → w.owner c t = some me →
  ∃ w', (sys p me honest).Steps (w, []) (w', []) ∧ w'.owner c t ≠ some me

/-- A token the contract owns stays there through every run, whoever calls whatever and also if it is listed. -/
theorem C148_stray {w : World State} (h : Run p me honest (w, [])) {c : Addr} {t : Bytes}
    (hh : honest c) (ho : w.owner c t = some me)
    {w' : World State} {pending : List Msg} (hs : (sys p me honest).Steps (w, []) (w', pending)) :
    w'.owner c t = some me :=
  (stray_run h hh hs ⟨ho, id, fun _ hm => nomatch hm⟩).1

namespace Sample
/-- alice sends the token to the contract -/
def lost : World State := { w0 with owner := setOwner w0.owner coll (tokStr 1) self }

theorem run_lost : Run P self hon (lost, []) :=
  Spec.Run.step run0 (Sys.Step.env (S := M) w0 lost [] trivial ⟨rfl, rfl, rfl, fun _ => Nat.le_refl _, by
    intro c t _ h
    by_cases e : c = coll ∧ t = tokStr 1
    · show setOwner w0.owner coll (tokStr 1) self c t = _
      simp only [setOwner, e, and_self, if_true]; rfl
    · have : setOwner w0.owner coll (tokStr 1) self c t = w0.owner c t := by simp [setOwner, e]
      exact this.trans h⟩)
end Sample

/-- The code offers no way to return such a token. -/
theorem C148_violated : ¬ C148_statement := by
  intro h
  obtain ⟨w', hs, hne⟩ := h Sample.P Sample.self Sample.hon Sample.lost Sample.run_lost Sample.coll
    (tokStr 1) trivial (by decide +kernel)
  exact hne (C148_stray Sample.run_lost trivial (by decide +kernel) hs)

/-- What holds: the contract never takes tokens into its own account, unless the caller asks for just that with `BuyFor`. Missing:
tokens sent to it from outside. -/
theorem C148_partial {ctx : Ctx} {sender : Addr} {funds : List Coin} {m : Exec} {s s' : State} {msgs : List Msg}
    (hr : Reach p me s) (hne : sender ≠ me) (h : execute p ctx sender funds m s = .ok (s', msgs))
    {c : Addr} {t : Bytes} (hm : .nft c t me ∈ msgs) : ∃ tok e f n, m = .buyFor c tok e f n me ∧ t = tokStr tok := by
  have hm' := mem_handed hm
  obtain ⟨T, ht, e, _, _, hcase⟩ := C49_consent hr h (fun e => by rw [e] at hm'; cases hm')
  rw [e, List.mem_singleton] at hm'
  cases hm'
  cases m with
  | acceptBid coll tok b f =>
    simp only [terms, Option.map_eq_some_iff] at ht
    obtain ⟨x, hx, rfl⟩ := ht
    have hg := hr.wf.bids _ _ hx
    exact absurd (congrArg (fun k => k.2.2) hg.key) hg.bidder
  | acceptCollectionBid coll tok b f =>
    simp only [terms, Option.map_eq_some_iff] at ht
    obtain ⟨x, hx, rfl⟩ := ht
    have hg := hr.wf.cbids _ _ hx
    exact absurd (congrArg (fun k => k.2) hg.key) hg.bidder
  | setBid =>
    simp only [terms, listed, Option.map_eq_some_iff] at ht
    obtain ⟨x, hx, rfl⟩ := ht
    exact absurd rfl hne
  | buyNow =>
    simp only [terms, listed, Option.map_eq_some_iff] at ht
    obtain ⟨x, hx, rfl⟩ := ht
    exact absurd rfl hne
  | buyFor coll tok e f n r =>
    simp only [terms, listed, Option.map_eq_some_iff] at ht
    obtain ⟨x, hx, rfl⟩ := ht
    exact ⟨_, _, _, _, rfl, rfl⟩
  | _ => exact absurd ht (by simp [terms])

example := C148_partial (p := Sample.P) (me := Sample.self) Sample.r6 (ctx := Sample.ctx 1002) (sender := Sample.carol)
  (funds := Sample.us 101) (m := .buyFor Sample.coll 1 (3000 * Sample.NSs) none none Sample.self) (by decide)
  (Sample.run_eq (by decide +kernel)) (c := Sample.coll) (t := tokStr 1) (by decide +kernel)

/-! ### C149 -/

/-- What the contract owes to bidders, per denom. -/
def Spec.owedBids (s : State) (d : Denom) : Nat := if d = ustars then openBids s else 0

/-- Coins in the contract's account beyond the open bids can be got out again. -/
def C149_statement : Prop := ∀ (p : Params) (me : Addr) (honest : Addr → Prop),
  ∀ w : World State, Run p me honest (w, []) → ∀ d : Denom, owedBids w.st d < w.bank me d →
  ∃ w', (sys p me honest).Steps (w, []) (w', []) ∧ w'.bank me d - owedBids w'.st d < w.bank me d - owedBids w.st d

theorem owed_eq (s : State) (d : Denom) : owedBids s d = escrow s d := by
  unfold owedBids escrow nat
  rw [ustars_eq]

/-- What the account holds beyond the open bids and the payments still to be made never gets less, in any denom, through any
run. -/
theorem C149_surplus {w w' : World State} {pending pending' : List Msg}
    (h : Run p me honest (w, pending)) (hs : (sys p me honest).Steps (w, pending) (w', pending')) (d : Denom) :
    w.bank me d - (owedBids w.st d + paidOut d pending) ≤ w'.bank me d - (owedBids w'.st d + paidOut d pending') := by
  have hsol := Spec.Run.solvent h
  have h0 : (sys p me honest).Solvent (fun s e => escrow s e + (w.bank me e - (escrow w.st e + outflow e pending))) (w, pending) := by
    intro e
    have := hsol e
    have e1 : (sys p me honest).self = me := rfl
    rw [e1] at this ⊢
    simp only at this ⊢
    omega
  have key := Sys.Steps.inv (P := fun y => (sys p me honest).Solvent
    (fun s e => escrow s e + (w.bank me e - (escrow w.st e + outflow e pending))) y) ?_ hs h0 d
  · have e1 : (sys p me honest).self = me := rfl
    rw [e1] at key
    simp only [← owed_eq, outflow_eq] at key
    omega
  · intro a b hsol hab
    refine Sys.surplus_step (S := sys p me honest) (I := fun _ => True) ?_ ?_ trivial hsol hab
    · intro ctx sender funds m s s' msgs _ _ _ h4 d
      obtain ⟨_, _, _, h⟩ := conservation (execute_eff h4)
      have := h d
      rw [outflow_eq]; omega
    · intro ctx m s s' msgs _ _ h4 d
      obtain ⟨e, rfl⟩ := sudo_eff (ctx := ctx) h4
      obtain ⟨_, e2, e3, _⟩ := e.orders
      simp only [escrow, openBids_eq, e2, e3, outflow_nil]
      omega

namespace Sample
/-- somebody sends 7 units to the contract -/
def gifted : World State := { w0 with bank := fun a d => if a = self ∧ d = NATIVE then 7 else w0.bank a d }

theorem run_gifted : Run P self hon (gifted, []) :=
  Spec.Run.step run0 (Sys.Step.env (S := M) w0 gifted [] trivial ⟨rfl, rfl, rfl, by
    intro d
    by_cases e : d = NATIVE
    · subst e; decide +kernel
    · show w0.bank self d ≤ (if self = self ∧ d = NATIVE then 7 else w0.bank self d)
      rw [if_neg (fun h => e h.2)]; exact Nat.le_refl _, fun _ _ _ h => h⟩)
end Sample

example := C149_surplus Sample.run_gifted (.refl _) ustars

/-- The code offers no way to return such coins. -/
theorem C149_violated : ¬ C149_statement := by
  intro h
  obtain ⟨w', hs, hlt⟩ := h Sample.P Sample.self Sample.hon Sample.gifted Sample.run_gifted ustars (by decide +kernel)
  have := C149_surplus Sample.run_gifted hs ustars
  simp only [paidOut] at this
  omega

/-- What holds: what is owed can be got out; the bidder of any open bid can get its price. Missing: the coins beyond the open
bids. -/
theorem C149_partial {w : World State} (h : Run p me honest (w, [])) {k : BidKey} {b : Bid} (hb : w.st.bids.get? k = some b)
    (q : Queries) (hq : (sys p me honest).queriesOk w q) :
    ∃ w', (sys p me honest).Steps (w, []) (w', []) ∧ w'.bank b.bidder ustars = w.bank b.bidder ustars + b.price := by
  obtain ⟨_, _, _, _, _, _, _, w', hs, _, _, hbk⟩ := C47_bid h hb q hq
  exact ⟨w', hs, hbk⟩

example := C149_partial Sample.run3 (k := (Sample.coll, 1, Sample.bob)) (b := ⟨Sample.coll, 1, Sample.bob, 60, some 300, 3000000000000⟩)
  (by decide +kernel) (Sample.qw Sample.w3) (fun _ _ _ => rfl)

end Verif.V1

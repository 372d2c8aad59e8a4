/-
Marketplace v1: what an account acquires is not for sale before it says so: C157.
-/
import Verif.V1.PropsStrand
import Verif.V1.PropsLedger
import Verif.V1.PropsManage

namespace Verif.V1
open Verif Spec

section
variable {p : Params} {me : Addr} {honest : Addr → Prop}

/-! ### C157 -/

/-- An account `x` does not own a token; later it does and has called the contract with nothing since. Then no call of somebody
else hands that token over. -/
def C157_statement : Prop := ∀ (p : Params) (me : Addr) (honest : Addr → Prop) (w1 w2 : World State) (l : List (Entry Exec Sudo)),
  Run p me honest (w1, []) → (sys p me honest).Hist (w1, []) l (w2, []) →
  ∀ (c : Addr) (t : Nat) (x : Addr), honest c → w1.owner c (tokStr t) ≠ some x → w2.owner c (tokStr t) = some x →
  (∀ f m ms, .call x f m ms ∉ l) →
  ∀ (q : Queries) (sender : Addr) (funds : List Coin) (m : Exec) (s' : State) (msgs : List Msg),
  (sys p me honest).queriesOk w2 q → sender ≠ me → sender ≠ x →
  execute p ((sys p me honest).ctx w2 q) sender funds m w2.st = .ok (s', msgs) → ∀ to, .nft c (tokStr t) to ∉ msgs

/-- The listing of `(c, t)`, if there is one, was not made by `x`. -/
def notBy (c : Addr) (t : Nat) (x : Addr) (s : State) : Prop := ∀ a, s.asks.get? (c, t) = some a → a.seller ≠ x

theorem notBy_exec {ctx : Ctx} {sender : Addr} {funds : List Coin} {m : Exec} {s s' : State} {msgs : List Msg}
    (h : execute p ctx sender funds m s = .ok (s', msgs)) {c : Addr} {t : Nat} {x : Addr} (hx : sender ≠ x)
    (hn : notBy c t x s) : notBy c t x s' := by
  have er : ∀ k, notBy c t x { s with asks := s.asks.erase k } := by
    intro k a ha
    rw [AMap.get?_erase] at ha
    split at ha
    · cases ha
    · exact hn a ha
  have ins : ∀ (k : Addr × Nat) (b : Ask), (k = (c, t) → b.seller ≠ x) → notBy c t x { s with asks := s.asks.insert k b } := by
    intro k b hb a ha
    rw [AMap.get?_insert] at ha
    split at ha
    · cases ha
      exact hb (by first | assumption | (symm; assumption))
    · exact hn a ha
  cases execute_eff h with
  | setAsk => exact ins _ _ (fun _ => hx)
  | removeAsk => exact er _
  | updatePrice coll tok price ask hv hf hown hpos hden hmin ha =>
    exact ins _ _ (fun e => hn ask (e ▸ ha))
  | bidSaved => exact hn
  | bought => exact er _
  | removeBid => exact hn
  | acceptBid => exact er _
  | rejectBid => exact hn
  | setCBid => exact hn
  | removeCBid => exact hn
  | acceptCBid => exact er _
  | syncAsk coll tok ask hv hf hop ha => exact ins _ _ (fun e => hn ask (e ▸ ha))
  | staleAsk => exact er _
  | staleBid => exact hn
  | staleCBid => exact hn

theorem notBy_hist {a b : World State × List Msg} {l : List (Entry Exec Sudo)} (h : (sys p me honest).Hist a l b)
    {c : Addr} {t : Nat} {x : Addr} (hc : ∀ f m ms, .call x f m ms ∉ l) (hn : notBy c t x a.1.st) : notBy c t x b.1.st := by
  induction h with
  | nil => exact hn
  | cons h hd ih =>
    have ih := ih (fun f m ms hm => hc f m ms (List.mem_cons_of_mem _ hm))
    cases hd with
    | call w stack sender funds m q s' msgs hctl hne hfunds hq hex =>
      refine notBy_exec hex ?_ ih
      rintro rfl
      exact hc _ _ _ List.mem_cons_self
    | sudo w m q s' msgs hq hex =>
      obtain ⟨e, _⟩ := sudo_eff (ctx := (sys p me honest).ctx w q) hex
      obtain ⟨e1, _⟩ := e.orders
      intro a ha
      exact ih a (by rw [← e1]; exact ha)
    | env w w' stack hctl he => intro a ha; exact ih a (by rw [← he.1]; exact ha)
    | block => exact ih
    | send => exact ih
    | fairBurn => exact ih
    | nft => exact ih
    | initRoyalty => exact ih
    | ret => exact ih

theorem run_hist {a b : World State × List Msg} {l : List (Entry Exec Sudo)} (hr : Run p me honest a)
    (h : (sys p me honest).Hist a l b) : Run p me honest b := by
  induction h with
  | nil => exact hr
  | cons _ hd ih => exact Spec.Run.step ih hd.step

/-- What holds: it is so if at the start no listing of this token made by `x` was left. Missing: the contract does not notice when
a token leaves its seller, so that the old listing is good again once the token is back. -/
theorem C157_partial_fresh {w1 w2 : World State} {l : List (Entry Exec Sudo)} (hr : Run p me honest (w1, []))
    (hh : (sys p me honest).Hist (w1, []) l (w2, [])) {c : Addr} {t : Nat} {x : Addr} (hc : honest c)
    (hno : ∀ a, w1.st.asks.get? (c, t) = some a → a.seller ≠ x) (ho : w2.owner c (tokStr t) = some x)
    (hx : ∀ f m ms, .call x f m ms ∉ l)
    {q : Queries} {sender : Addr} {funds : List Coin} {m : Exec} {s' : State} {msgs : List Msg}
    (hq : (sys p me honest).queriesOk w2 q) (hs : sender ≠ x)
    (h : execute p ((sys p me honest).ctx w2 q) sender funds m w2.st = .ok (s', msgs)) (to : Addr) :
    .nft c (tokStr t) to ∉ msgs := by
  intro hm
  have hn : notBy c t x w2.st := notBy_hist hh hx hno
  have hr2 : Reach p me w2.st := Spec.Run.reach (run_hist hr hh)
  have hm' := mem_handed hm
  obtain ⟨T, _, e, hown, _, hcase⟩ := C49_consent hr2 h (fun e => by rw [e] at hm'; cases hm')
  rw [e, List.mem_singleton] at hm'
  simp only [Prod.mk.injEq] at hm'
  obtain ⟨rfl, e2, rfl⟩ := hm'
  have := tokStr_inj e2
  subst this
  have hown' : w2.owner T.coll (tokStr T.tok) = some T.seller := (hq _ _ hc).symm.trans hown
  have hT : T.seller = x := Option.some.inj (hown'.symm.trans ho)
  rcases hcase with ⟨e, _⟩ | ⟨e, _⟩ | ⟨_, _, _, a, ha, _, _, _, _, e⟩
  · exact hs (e.symm.trans hT)
  · exact hs (e.symm.trans hT)
  · exact hn a ha (e.trans hT)

/-- What also holds: as long as somebody else owns the token, the old listing sells nothing; and that owner can take it down. -/
theorem C157_partial_idle {w : World State} (hr : Run p me honest (w, [])) {c : Addr} {t : Nat} {a : Ask} {y : Addr}
    (hc : honest c) (ha : w.st.asks.get? (c, t) = some a) (ho : w.owner c (tokStr t) = some y) (hy : y ≠ a.seller) (hme : y ≠ me)
    {q : Queries} (hq : (sys p me honest).queriesOk w q) :
    (∀ sender funds m s' msgs, execute p ((sys p me honest).ctx w q) sender funds m w.st = .ok (s', msgs) →
      ∀ to, .nft c (tokStr t) to ∈ msgs → sender = y) ∧
    ∃ s' msgs, execute p ((sys p me honest).ctx w q) y [] (.removeAsk c t) w.st = .ok (s', msgs) ∧ s'.asks.get? (c, t) = none := by
  have hr2 : Reach p me w.st := Spec.Run.reach hr
  constructor
  · intro sender funds m s' msgs h to hm
    have hm' := mem_handed hm
    obtain ⟨T, _, e, hown, _, hcase⟩ := C49_consent hr2 h (fun e => by rw [e] at hm'; cases hm')
    rw [e, List.mem_singleton] at hm'
    simp only [Prod.mk.injEq] at hm'
    obtain ⟨rfl, e2, rfl⟩ := hm'
    have := tokStr_inj e2
    subst this
    have hown' : w.owner T.coll (tokStr T.tok) = some T.seller := (hq _ _ hc).symm.trans hown
    have hT : T.seller = y := Option.some.inj (hown'.symm.trans ho)
    rcases hcase with ⟨e, _⟩ | ⟨e, _⟩ | ⟨_, _, _, a', ha', _, _, _, _, e⟩
    · exact e.symm.trans hT
    · exact e.symm.trans hT
    · rw [ha] at ha'
      cases ha'
      exact absurd (e.trans hT).symm hy
  · obtain ⟨s', msgs, _, h1, h2, _⟩ := C102_remove hr hq hc ho hme ha
    exact ⟨s', msgs, h1, h2⟩

namespace Sample
/-- alice has listed token 1 for 101 and then given it to bob -/
def given : World State := { lw2 with owner := setOwner lw2.owner coll (tokStr 1) bob }
/-- much later bob gives it back; alice has forgotten the listing -/
def returned : World State := { given with owner := setOwner given.owner coll (tokStr 1) alice }

theorem gives (w : World State) (o : Addr) (h : w.owner coll (tokStr 1) ≠ some self) :
    M.Did (w, []) (.gift (fun d => w.bank self d - w.bank self d)) ({ w with owner := setOwner w.owner coll (tokStr 1) o }, []) :=
  Sys.Did.env (S := M) w { w with owner := setOwner w.owner coll (tokStr 1) o } [] trivial
    ⟨rfl, rfl, rfl, fun _ => Nat.le_refl _, by
      intro c t _ ho
      by_cases e : c = coll ∧ t = tokStr 1
      · rw [e.1, e.2] at ho; exact absurd ho h
      · have : setOwner w.owner coll (tokStr 1) o c t = w.owner c t := by simp [setOwner, e]
        exact this.trans ho⟩

theorem run_lw2 : Run P self hon (lw2, []) := by
  have hok : ok (M.ctx w0 (qw w0)) alice (us 3) askMsg w0.st = true := by decide +kernel
  have h1 := Sys.Did.call (S := M) w0 [] alice (us 3) askMsg (qw w0) l1.1 l1.2 trivial
    (by decide) (us_only (by decide +kernel)) (fun _ _ _ => rfl) (run_eq2 hok)
  have hm : l1.2 = [.fairBurn (us 3)] := by decide +kernel
  have h2 := Sys.Did.fairBurn (S := M) lw1 (us 3) [] (us_only (by decide +kernel))
  rw [List.append_nil] at h1
  have h3 := Spec.Run.step run0 h1.step
  rw [hm] at h3
  exact Spec.Run.step h3 h2.step
theorem run_given : Run P self hon (given, []) := Spec.Run.step run_lw2 (gives lw2 bob (by decide +kernel)).step
theorem hist_returned : M.Hist (given, []) [.gift (fun d => given.bank self d - given.bank self d)] (returned, []) :=
  .cons .nil (gives given alice (by decide +kernel))
end Sample

/-- carol buys alice's token at the old price. -/
theorem C157_violated : ¬ C157_statement := by
  intro h
  have hok : Sample.ok (Sample.M.ctx Sample.returned (Sample.qw Sample.returned)) Sample.carol (Sample.us 101) Sample.buyMsg
    Sample.returned.st = true := by decide +kernel
  refine h Sample.P Sample.self Sample.hon Sample.given Sample.returned _ Sample.run_given Sample.hist_returned
    Sample.coll 1 Sample.alice trivial (by decide +kernel) (by decide +kernel) (fun f m ms hm => ?_) (Sample.qw Sample.returned)
    Sample.carol (Sample.us 101) Sample.buyMsg _ _ (fun _ _ _ => rfl) (by decide) (by decide) (Sample.run_eq hok) Sample.carol
    (by decide +kernel)
  rcases List.mem_cons.mp hm with hm | hm <;> cases hm

namespace Sample
/-- bob, to whom alice gave the token, has never listed it -/
example := C157_partial_fresh (c := coll) (t := 1) (x := bob) run_lw2 (.cons .nil (gives lw2 bob (by decide +kernel))) trivial
  (fun a ha => by
    have : lw2.st.asks.get? (coll, 1) = some ⟨.fixedPrice, coll, 1, alice, 101, none, none, some 500, 2000 * NSs, true⟩ := by
      decide +kernel
    cases this.symm.trans ha
    decide) (by decide +kernel)
  (fun f m ms hm => by rcases List.mem_cons.mp hm with hm | hm <;> cases hm) (q := qw given) (fun _ _ _ => rfl)
  (sender := carol) (funds := us 60) (m := bidMsg) (by decide) (run_eq (by decide +kernel))
example := C157_partial_idle (y := bob) run_given trivial (c := coll) (t := 1)
  (a := ⟨.fixedPrice, coll, 1, alice, 101, none, none, some 500, 2000 * NSs, true⟩)
  (by decide +kernel) (by decide +kernel) (by decide) (by decide) (q := qw given) (fun _ _ _ => rfl)
end Sample

end
end Verif.V1

/-
C145: the first marketplace on a chain whose bank refuses payments to some addresses.
-/
import Verif.Base.Refuse
import Verif.V1.PropsSigned
import Verif.V1.PropsLive

namespace Verif.V1
open Verif Spec

variable {p : Params} {me : Addr} {honest blk : Addr → Prop}

/-- Runs from a fresh deployment on a chain that refuses payments to `blk`. -/
def Spec.RunB (p : Params) (self : Addr) (honest blk : Addr → Prop) (x : World State × List Msg) : Prop :=
  ∃ i w0, instantiate p i = .ok w0.st ∧ (sys p self honest).StepsB blk (w0, []) x

theorem Spec.RunB.run {x : World State × List Msg} (h : RunB p me honest blk x) : Run p me honest x := by
  obtain ⟨c, w0, hi, hs⟩ := h
  exact ⟨c, w0, hi, hs.steps⟩

/-- The calls of such a run come from accounts that are not refused. -/
theorem Spec.RunB.diary {x : World State × List Msg} (h : RunB p me honest blk x) :
    ∃ i s0 l, instantiate p i = .ok s0 ∧ Diary p me s0 l x.1.st ∧ ∀ y ∈ l, ¬ blk y.sender := by
  obtain ⟨c, w0, hi, hs⟩ := h
  refine ⟨c, w0.st, ?_⟩
  have := hs.inv (P := fun x => ∃ l, Diary p me w0.st l x.1.st ∧ ∀ y ∈ l, ¬ blk y.sender) (by
    rintro b e c _ ⟨l, hd, hl⟩ hdid he
    cases hdid with
    | call w stack sender funds m q s' msgs hctl hne hfunds hq hex =>
      refine ⟨_, .call hd rfl hne hex, ?_⟩
      intro y hy
      rcases List.mem_cons.1 hy with rfl | hy
      · exact he
      · exact hl y hy
    | sudo w m q s' msgs hq hex => exact ⟨l, .sudo (ctx := (sys p me honest).ctx w q) hd rfl hex, hl⟩
    | env w w' stack hctl h => exact ⟨l, by rw [show w'.st = w.st from h.1]; exact hd, hl⟩
    | _ => exact ⟨l, hd, hl⟩) ⟨[], .nil, fun _ h => nomatch h⟩
  obtain ⟨l, h1, h2⟩ := this
  exact ⟨l, hi, h1, h2⟩

/-- Bids belong to accounts that are not refused. -/
theorem bidders_accepted {x : World State × List Msg} (h : RunB p me honest blk x) :
    (∀ k b, x.1.st.bids.get? k = some b → ¬ blk b.bidder) ∧ ∀ k b, x.1.st.cbids.get? k = some b → ¬ blk b.bidder := by
  obtain ⟨c, s0, l, hi, hd, hl⟩ := h.diary
  refine ⟨?_, ?_⟩
  · intro id a ha
    obtain ⟨y, h1, l1, l2, h2, _⟩ := C129_bid hi hd ha
    rw [← h1.1]; exact hl y (by rw [h2]; simp)
  · intro id a ha
    obtain ⟨y, h1, l1, l2, h2, _⟩ := C129_cbid hi hd ha
    rw [← h1.1]; exact hl y (by rw [h2]; simp)

/-- An accepted call that sends no empty coin completes if, and only if, none of its payments is refused. (`hn` and `hz` as in
C98.) -/
theorem C145_v1_call {w : World State} (h : Run p me honest (w, [])) {q : Queries} {sender : Addr} {funds : List Coin} {m : Exec}
    {s' : State} {msgs : List Msg} (hq : (sys p me honest).queriesOk w q) (hne : sender ≠ me) (hsb : ¬ blk sender)
    (hfunds : ∀ d, amountOf d funds ≤ w.bank sender d)
    (hx : execute p ((sys p me honest).ctx w q) sender funds m w.st = .ok (s', msgs))
    (hn : ∀ c t to, (c, t, to) ∈ handed msgs → honest c ∧ w.approved c t = true) (hz : NoZero msgs) :
    (Refused blk msgs → ∀ w', ¬ (sys p me honest).StepsB blk (w.begun me sender funds s', msgs) (w', [])) ∧
      (¬ Refused blk msgs → ∃ w', (sys p me honest).Completes blk w sender funds s' msgs w' ∧ w'.st = s' ∧
        (∀ x d, x ≠ me → w'.bank x d + (if x = sender then amountOf d funds else 0) = w.bank x d + gets x d msgs) ∧
        (∀ c t to, (c, t, to) ∈ handed msgs → w'.owner c t = some to) ∧
        (∀ c t, (∀ to, (c, t, to) ∉ handed msgs) → w'.owner c t = w.owner c t)) := by
  have hr := Spec.Run.reach h
  have h1 := Sys.Did.call (S := sys p me honest) w [] sender funds m q s' msgs trivial hne hfunds hq hx
  have hs := Spec.Run.solvent (Spec.Run.step h h1.step)
  rw [List.append_nil] at h1 hs
  have e := execute_eff hx
  refine ⟨fun hb w' => hb.never w', fun hb => ?_⟩
  have key := Sys.drainB (S := sys p me honest) msgs []
    { w with bank := moveFunds w.bank sender (sys p me honest).self funds, st := s' } hb ?_ (tokens_nodup hr.wf e) ?_
  · obtain ⟨w', hst, e1, -, -, -, b1, -, o1, o2⟩ := key
    rw [List.append_nil] at hst
    refine ⟨w', ⟨.single h1 hsb, hst⟩, e1, ?_, fun c t to hm => o1 c t to (handed_mem.mp hm), fun c t hm => o2 c t (fun to h => hm to (handed_mem.mpr h))⟩
    intro x d hxm
    rw [b1 x d hxm]
    show moveFunds w.bank sender me funds x d + _ + _ = _
    by_cases e : x = sender
    · subst e
      rw [moveFunds_from hxm, if_pos rfl]
      have := hfunds d
      omega
    · rw [moveFunds_other e hxm, if_neg e]; omega
  · intro y hy
    cases y with
    | send to cs => exact hz to cs hy
    | nft c t to =>
      have hm := handed_mem.mpr hy
      obtain ⟨x1, x2⟩ := hn c t to hm
      obtain ⟨T, _, k2, k3, _⟩ := C49_consent hr hx (fun h => by rw [h] at hm; cases hm)
      rw [k2, List.mem_singleton] at hm
      cases hm
      rw [show ((sys p me honest).ctx w q).q = q from rfl, hq _ _ x1] at k3
      exact ⟨x1, _, k3, Or.inr x2⟩
    | initRoyalty r c => exact absurd hy (no_royalty e)
    | fairBurn cs => trivial
    | hook a i => trivial
  · intro d
    exact Nat.le_trans (Nat.le_add_left _ _) (hs d)

theorem withdrawn {w : World State} (h : RunB p me honest blk (w, [])) {who : Addr} {n : Nat} {m : Exec} {s' : State} {hs : List Msg}
    (q : Queries) (hq : (sys p me honest).queriesOk w q) (hne : who ≠ me) (hb : ¬ blk who) (hpos : 0 < n)
    (hx : execute p ((sys p me honest).ctx w q) who [] m w.st = .ok (s', .send who [⟨ustars, n⟩] :: hs)) (hh : ∀ x ∈ hs, IsHook x) :
    ∃ w', (sys p me honest).Completes blk w who [] s' (.send who [⟨ustars, n⟩] :: hs) w' ∧ w'.st = s' ∧ w'.bank who ustars = w.bank who ustars + n := by
  have hno : ∀ c t to, Msg.nft c t to ∉ hs := fun c t to hm => (hh _ hm)
  have hno2 : ∀ to cs, Msg.send to cs ∉ hs := fun to cs hm => (hh _ hm)
  obtain ⟨_, h2⟩ := C145_v1_call (blk := blk) h.run hq hne hb (fun d => Nat.zero_le _) hx
    (by intro c t to hm
        have := handed_mem.mp hm
        simp only [List.mem_cons, reduceCtorEq, false_or] at this
        exact absurd this (hno _ _ _))
    (by intro to cs hm
        simp only [List.mem_cons, Msg.send.injEq] at hm
        rcases hm with ⟨_, rfl⟩ | hm
        · simp; exact hpos
        · exact absurd hm (hno2 _ _))
  obtain ⟨w', h3, h4, h5, _⟩ := h2 (by
    rintro ⟨to, cs, h6, hm⟩
    simp only [List.mem_cons, Msg.send.injEq] at hm
    rcases hm with ⟨rfl, _⟩ | hm
    · exact hb h6
    · exact absurd hm (hno2 _ _))
  refine ⟨w', h3, h4, ?_⟩
  have h6 := h5 who ustars hne
  have h7 : gets who ustars hs = 0 := by
    have : ∀ l : List Msg, (∀ x ∈ l, IsHook x) → gets who ustars l = 0 := by
      intro l hl
      induction l with
      | nil => rfl
      | cons y l ih =>
        have hy := hl y List.mem_cons_self
        have := ih (fun x hx => hl x (List.mem_cons_of_mem _ hx))
        cases y <;> first | exact hy.elim | simpa [gets] using this
    exact this hs hh
  simp only [gets, h7] at h6
  simpa [amountOf, Coin.inDenom] using h6

/-- Whoever has an open bid can withdraw it, whatever accounts others have named: the call is accepted and completes. -/
theorem C145_v1_bid {w : World State} (h : RunB p me honest blk (w, [])) {k : BidKey} {b : Bid} (hb : w.st.bids.get? k = some b)
    (q : Queries) (hq : (sys p me honest).queriesOk w q) :
    ∃ s' msgs w', execute p ((sys p me honest).ctx w q) b.bidder [] (.removeBid b.collection b.tokenId) w.st = .ok (s', msgs) ∧
      (sys p me honest).Completes blk w b.bidder [] s' msgs w' ∧ w'.st = s' ∧ s'.bids.get? k = none ∧
      w'.bank b.bidder ustars = w.bank b.bidder ustars + b.price := by
  have hg := (Spec.Run.reach h.run).wf.bids _ _ hb
  obtain ⟨s', hs, hx, hh, _, hgone, _⟩ := C47_bid h.run hb q hq
  obtain ⟨w', h1, h2, h3⟩ := withdrawn h q hq hg.bidder ((bidders_accepted h).1 k b hb) hg.pos hx hh
  exact ⟨_, _, w', hx, h1, h2, hgone, h3⟩

/-- The same for collection bids. -/
theorem C145_v1_cbid {w : World State} (h : RunB p me honest blk (w, [])) {k : CBidKey} {b : CBid} (hb : w.st.cbids.get? k = some b)
    (q : Queries) (hq : (sys p me honest).queriesOk w q) :
    ∃ s' msgs w', execute p ((sys p me honest).ctx w q) b.bidder [] (.removeCollectionBid b.collection) w.st = .ok (s', msgs) ∧
      (sys p me honest).Completes blk w b.bidder [] s' msgs w' ∧ w'.st = s' ∧ s'.cbids.get? k = none ∧
      w'.bank b.bidder ustars = w.bank b.bidder ustars + b.price := by
  have hg := (Spec.Run.reach h.run).wf.cbids _ _ hb
  obtain ⟨s', hs, hx, hh, _, hgone, _⟩ := C47_cbid h.run hb q hq
  obtain ⟨w', h1, h2, h3⟩ := withdrawn h q hq hg.bidder ((bidders_accepted h).2 k b hb) hg.pos hx hh
  exact ⟨_, _, w', hx, h1, h2, hgone, h3⟩

namespace Sample
/-- the account of a module -/
def modAcc : Addr := [3, 1, 3]
abbrev isMod : Addr → Prop := fun a => a = modAcc

theorem rbStep {x y : World State × List Msg} {e : Entry Exec Sudo} (h : RunB P self hon isMod x) (hd : M.Did x e y)
    (he : e.accepted isMod) : RunB P self hon isMod y := by
  obtain ⟨c, w0, hi, hs⟩ := h
  exact ⟨c, w0, hi, hs.tail hd he⟩

theorem rbCall {w : World State} (hr : RunB P self hon isMod (w, [])) {sender : Addr} {funds : List Coin} {m : Exec} {msgs : List Msg}
    (hne : sender ≠ self) (hmod : sender ≠ modAcc) (hfunds : ∀ d, amountOf d funds ≤ w.bank sender d)
    (hs : ok (M.ctx w (qw w)) sender funds m w.st = true) (hm : (run (M.ctx w (qw w)) sender funds m w.st).2 = msgs) :
    RunB P self hon isMod (at_ w sender funds m, msgs) := by
  have h1 := Sys.Did.call (S := M) w [] sender funds m (qw w) (run (M.ctx w (qw w)) sender funds m w.st).1
    (run (M.ctx w (qw w)) sender funds m w.st).2 trivial hne hfunds (fun _ _ _ => rfl) (run_eq hs)
  rw [hm, List.append_nil] at h1
  exact rbStep hr h1 hmod

theorem rbRun1 : RunB P self hon isMod (w1, []) := by
  have h : sok (M.ctx w0 (qw w0)) (.addBidHook hk) s0 = true := by decide +kernel
  have h1 := Sys.Did.sudo (S := M) w0 (.addBidHook hk) (qw w0) _ _ (fun _ _ _ => rfl) (srun_eq h)
  exact rbStep ⟨_, w0, init0, .refl _⟩ h1 trivial
theorem rbRun2 : RunB P self hon isMod (w2, []) :=
  rbStep (rbCall rbRun1 (by decide) (by decide) (us_only (by decide +kernel)) (by decide +kernel) (by decide +kernel))
    (Sys.Did.ret (S := M) w2 (hookMsg 60) [] trivial) trivial
theorem rbRun3 : RunB P self hon isMod (w3, []) :=
  rbCall rbRun2 (by decide) (by decide) (us_only (by decide +kernel)) (by decide +kernel) (by decide +kernel)

example := C145_v1_bid (blk := isMod) rbRun3 (k := (coll, 1, bob)) (b := ⟨coll, 1, bob, 60, some 300, 3000000000000⟩)
  (by decide +kernel) (qw w3) (fun _ _ _ => rfl)
example := C145_v1_cbid (blk := isMod) rbRun3 (k := (coll, carol)) (b := ⟨coll, carol, 50, none, 3000000000000⟩)
  (by decide +kernel) (qw w3) (fun _ _ _ => rfl)
/-- bob raises the bid -/
example := C145_v1_call (blk := isMod) run3 (fun _ _ _ => rfl) (by decide) (by decide) (us_only (by decide +kernel))
  (run_eq (c := M.ctx w3 (qw w3)) (sender := bob) (funds := us 70) (m := bidMsg) (s := w3.st) (by decide +kernel))
  (fun _ _ _ _ => ⟨trivial, rfl⟩) (C98_partial_plain (Spec.Run.reach run3)
    (run_eq (c := M.ctx w3 (qw w3)) (sender := bob) (funds := us 70) (m := bidMsg) (s := w3.st) (by decide +kernel)) rfl (fun h => h))
end Sample

end Verif.V1

/-
Marketplace v1, calls that must go through: C98 to C101.
-/
import Verif.V1.PropsSale
import Verif.Base.Drain
import Verif.Base.Stuck

namespace Verif.V1
open Verif Spec

variable {p : Params} {me : Addr} {honest : Addr → Prop}
variable {ctx : Ctx} {sender : Addr} {funds : List Coin} {m : Exec} {s s' : State} {msgs : List Msg}

/-! ### C98 an accepted call completes -/

/-- The world when the contract has accepted a call and its messages are about to be executed. -/
def Spec.called (w : World State) (me sender : Addr) (funds : List Coin) (s' : State) : World State :=
  { w with bank := moveFunds w.bank sender me funds, st := s' }

/-- Full statement of C98: the messages of an accepted call are executed, if the tokens it hands over are of conforming collections
and the contract is approved for them. -/
def C98_statement : Prop :=
  ∀ (p : Params) (me : Addr) (honest : Addr → Prop) (w : World State) (q : Queries) (sender : Addr) (funds : List Coin) (m : Exec)
    (s' : State) (msgs : List Msg), Run p me honest (w, []) → (sys p me honest).queriesOk w q → sender ≠ me →
    (∀ d, amountOf d funds ≤ w.bank sender d) → execute p ((sys p me honest).ctx w q) sender funds m w.st = .ok (s', msgs) →
    (∀ c t to, (c, t, to) ∈ handed msgs → honest c ∧ w.approved c t = true) →
    ∃ w', (sys p me honest).Steps (called w me sender funds s', msgs) (w', [])

namespace Sample
/-- bob bids 19; the bid runs out -/
def v1 : World State := at_ w0 bob (us 19) bidMsg
def v2 : World State := { v1 with time := 4000 * NSs, height := 8 }
def removeMsg : Exec := .removeStaleBid coll 1 bob
theorem vrun1 : Run P self hon (v1, []) :=
  call2 run0 (by decide) (us_only (by decide +kernel)) (by decide +kernel) (by decide +kernel)
theorem vrun2 : Run P self hon (v2, []) :=
  Spec.Run.step vrun1 (Sys.Step.block (S := M) v1 (4000 * NSs) 8 (by decide +kernel) (by decide +kernel))
end Sample

/-- The operator's reward of 5% of 19 rounds to zero, and the bank refuses to send nothing. -/
theorem C98_violated : ¬ C98_statement := by
  intro h
  have h1 : Sample.ok (Sample.M.ctx Sample.v2 (Sample.qw Sample.v2)) Sample.oper [] Sample.removeMsg Sample.v2.st = true := by
    decide +kernel
  have h2 : (Sample.run (Sample.M.ctx Sample.v2 (Sample.qw Sample.v2)) Sample.oper [] Sample.removeMsg Sample.v2.st).2 =
      [.send Sample.bob (Sample.us 19)] ++ .send Sample.oper (Sample.us 0) :: [] := by decide +kernel
  have h3 := Sample.run_eq h1
  generalize Sample.run (Sample.M.ctx Sample.v2 (Sample.qw Sample.v2)) Sample.oper [] Sample.removeMsg Sample.v2.st = r at h2 h3
  obtain ⟨s', msgs⟩ := r
  cases h2
  obtain ⟨w', hs⟩ := h Sample.P Sample.self Sample.hon Sample.v2 (Sample.qw Sample.v2) Sample.oper [] Sample.removeMsg s' _
    Sample.vrun2 (fun _ _ _ => rfl) (by decide) (fun _ => Nat.zero_le _) h3 (by intro c t to hm; cases hm)
  refine Sys.Broke.stuck ⟨[.send Sample.bob (Sample.us 19)], Sample.oper, Sample.us 0, [], rfl,
    ⟨⟨NATIVE, 0⟩, by simp [Sample.us], rfl⟩, ?_⟩ hs rfl
  simp [Msg.plain]

/-- All coins sent are nonempty. -/
def Spec.NoZero (msgs : List Msg) : Prop := ∀ to cs, Msg.send to cs ∈ msgs → cs ≠ [] ∧ ∀ c ∈ cs, 0 < c.amount

theorem Spec.NoZero.append {a b : List Msg} (ha : NoZero a) (hb : NoZero b) : NoZero (a ++ b) := by
  intro to cs h
  rcases List.mem_append.mp h with h | h
  · exact ha to cs h
  · exact hb to cs h

theorem Spec.NoZero.hooks (hs : List Addr) (f : Addr → HookInfo) : NoZero (hs.map (fun h => .hook h (f h))) := by
  intro to cs h
  obtain ⟨_, _, h⟩ := List.mem_map.mp h
  cases h

theorem Spec.NoZero.one {to : Addr} {d : Denom} {n : Nat} (h : 0 < n) : NoZero [.send to [⟨d, n⟩]] := by
  intro to' cs hm
  rw [List.mem_singleton] at hm
  cases hm
  refine ⟨by simp, ?_⟩
  intro c hc
  rw [List.mem_singleton] at hc
  subst hc; exact h

theorem Spec.NoZero.burn {cs : List Coin} : NoZero [.fairBurn cs] := by
  intro to' cs hm
  rw [List.mem_singleton] at hm
  cases hm

theorem Spec.NoZero.nil : NoZero [] := by intro to cs h; cases h

theorem Spec.NoZero.refund {o : Option Nat} {a : Addr} (h : ∀ n, o = some n → 0 < n) : NoZero (refund o a) := by
  unfold V1.refund
  split
  · exact .one (h _ rfl)
  · exact .nil

theorem Spec.NoZero.finder (f : Option Addr) (n : Nat) : NoZero (finderMsg f n) := by
  unfold finderMsg
  split
  · split
    · exact .one (by assumption)
    · exact .nil
  · exact .nil

theorem handed_mem {c : Addr} {t : Bytes} {to : Addr} : ∀ {ms : List Msg}, (c, t, to) ∈ handed ms ↔ Msg.nft c t to ∈ ms
  | [] => by simp [handed]
  | m :: ms => by
    have ih := handed_mem (c := c) (t := t) (to := to) (ms := ms)
    cases m <;> simp [handed, ih]

/-- a message moves at most one token -/
theorem one_handed (hw : WF p me s) (e : Eff p ctx sender funds s m s' msgs) : (handed msgs).length ≤ 1 := by
  by_cases hh : handed msgs = []
  · rw [hh]; exact Nat.zero_le _
  · obtain ⟨T, ⟨sh⟩⟩ := sale_shape hw e hh
    rw [sh.handed]; exact Nat.le_refl _

theorem tokens_handed : ∀ ms : List Msg, ms.filterMap Msg.token = (handed ms).map (fun x => (x.1, x.2.1))
  | [] => rfl
  | m :: ms => by
    have ih := tokens_handed ms
    cases m <;> simp [handed, Msg.token, List.filterMap_cons, ih]

theorem tokens_nodup (hw : WF p me s) (e : Eff p ctx sender funds s m s' msgs) : (msgs.filterMap Msg.token).Nodup := by
  rw [tokens_handed]
  have h := one_handed hw e
  generalize handed msgs = l at h
  match l, h with
  | [], _ => exact List.nodup_nil
  | [x], _ => simp
  | _ :: _ :: _, h => simp at h

theorem no_royalty {r c : Addr} (e : Eff p ctx sender funds s m s' msgs) : Msg.initRoyalty r c ∉ msgs := by
  have hk : ∀ (hs : List Addr) (f : Addr → HookInfo), Msg.initRoyalty r c ∉ hs.map (fun h => .hook h (f h)) := by
    intro hs f h
    obtain ⟨_, _, h⟩ := List.mem_map.mp h
    cases h
  have hp : ∀ {ms : List Msg}, AllPay ms → Msg.initRoyalty r c ∉ ms := fun h hm => h _ hm
  have hsold : ∀ {a pr b f rc ms}, Sold ctx s a pr b f rc ms → Msg.initRoyalty r c ∉ ms := by
    intro a pr b f rc ms hs
    obtain ⟨pay, h1, rfl⟩ := hs.shape
    simp only [List.mem_append, List.mem_singleton, reduceCtorEq, not_or, not_false_eq_true, and_true]
    exact ⟨hp h1.pay, hk _ _⟩
  cases e with
  | setAsk =>
    simp only [List.mem_append, not_or]
    refine ⟨?_, hk _ _⟩
    split <;> simp
  | removeAsk => exact hk _ _
  | updatePrice => exact hk _ _
  | bidSaved => simp only [List.mem_append, not_or]; exact ⟨hp (refund_pay _ _), hk _ _⟩
  | bought _ _ _ _ _ _ _ _ _ _ _ _ _ _ _ _ _ _ _ hs =>
    simp only [List.mem_append, not_or]; exact ⟨hp (refund_pay _ _), hsold hs⟩
  | acceptBid _ _ _ _ _ _ _ _ _ _ _ _ hs => exact hsold hs
  | acceptCBid _ _ _ _ _ _ _ _ _ _ _ _ hs => exact hsold hs
  | removeBid => simp only [List.mem_cons, reduceCtorEq, false_or]; exact hk _ _
  | rejectBid => simp only [List.mem_cons, reduceCtorEq, false_or]; exact hk _ _
  | setCBid =>
    simp only [List.mem_append, not_or]
    refine ⟨?_, hk _ _⟩
    split <;> simp
  | removeCBid => simp only [List.mem_cons, reduceCtorEq, false_or]; exact hk _ _
  | syncAsk => exact hk _ _
  | staleAsk => exact hk _ _
  | staleBid => simp only [List.mem_cons, reduceCtorEq, false_or]; exact hk _ _
  | staleCBid => simp only [List.mem_cons, reduceCtorEq, false_or]; exact hk _ _

/-- What is true: it completes if none of the coins to be sent is zero. Afterwards every account other than the contract has what it
had, less the attached funds, plus what was sent to it, and tokens have moved as the messages say. -/
theorem C98_partial {w : World State} (h : Run p me honest (w, [])) {q : Queries}
    (hq : (sys p me honest).queriesOk w q) (hne : sender ≠ me) (hfunds : ∀ d, amountOf d funds ≤ w.bank sender d)
    (hx : execute p ((sys p me honest).ctx w q) sender funds m w.st = .ok (s', msgs))
    (hn : ∀ c t to, (c, t, to) ∈ handed msgs → honest c ∧ w.approved c t = true) (hz : NoZero msgs) :
    ∃ w', (sys p me honest).Step (w, []) (called w me sender funds s', msgs) ∧
      (sys p me honest).Steps (called w me sender funds s', msgs) (w', []) ∧ w'.st = s' ∧
      (∀ x d, x ≠ me → w'.bank x d + (if x = sender then amountOf d funds else 0) = w.bank x d + gets x d msgs) ∧
      (∀ c t to, (c, t, to) ∈ handed msgs → w'.owner c t = some to) ∧
      (∀ c t, (∀ to, (c, t, to) ∉ handed msgs) → w'.owner c t = w.owner c t) := by
  have hr := Spec.Run.reach h
  have h1 := Sys.Step.call (S := sys p me honest) w [] sender funds m q s' msgs trivial hne hfunds hq hx
  have hrun := Spec.Run.step h h1
  rw [List.append_nil] at h1 hrun
  have e := execute_eff hx
  have key := Sys.drain (S := sys p me honest) msgs [] (called w me sender funds s') ?_ (tokens_nodup hr.wf e) ?_
  · obtain ⟨w', hst, e1, -, -, -, b1, -, o1, o2⟩ := key
    rw [List.append_nil] at hst
    refine ⟨w', h1, hst, e1, ?_, fun c t to hm => o1 c t to (handed_mem.mp hm), fun c t hm => o2 c t (fun to h => hm to (handed_mem.mpr h))⟩
    intro x d hxm
    rw [b1 x d hxm]
    show moveFunds w.bank sender me funds x d + _ + _ = _
    by_cases e : x = sender
    · subst e
      rw [moveFunds_from hxm, if_pos rfl]
      have := hfunds d
      omega
    · rw [moveFunds_other e hxm, if_neg e]; omega
  · intro y hy
    cases y with
    | send to cs => exact hz to cs hy
    | nft c t to =>
      have hm := handed_mem.mpr hy
      obtain ⟨x1, x2⟩ := hn c t to hm
      obtain ⟨T, _, k2, k3, _⟩ := C49_consent hr hx (fun h => by rw [h] at hm; cases hm)
      rw [k2, List.mem_singleton] at hm
      cases hm
      rw [show ((sys p me honest).ctx w q).q = q from rfl, hq _ _ x1] at k3
      exact ⟨x1, _, k3, Or.inr x2⟩
    | initRoyalty r c => exact absurd hy (no_royalty e)
    | fairBurn cs => trivial
    | hook a i => trivial
  · intro d
    exact Nat.le_trans (Nat.le_add_left _ _) (Spec.Run.solvent hrun d)

/-- The call is the removal of a stale bid or collection bid. -/
def Spec.removesStale : Exec → Prop
  | .removeStaleBid _ _ _ | .removeStaleCollectionBid _ _ => True
  | _ => False

/-- All other calls that do not sell send no zero coins. -/
theorem C98_partial_plain (hr : Reach p me s) (h : execute p ctx sender funds m s = .ok (s', msgs)) (hh : handed msgs = [])
    (hm : ¬ removesStale m) : NoZero msgs := by
  have hw := hr.wf
  have e := execute_eff h
  have nosale : ∀ {a pr b f rc ms} {pre : List Msg}, Sold ctx s a pr b f rc ms → handed (pre ++ ms) ≠ [] := by
    intro a pr b f rc ms pre hs
    obtain ⟨pay, h1, rfl⟩ := hs.shape
    simp [handed_append, handed]
  cases e with
  | setAsk =>
    refine NoZero.append ?_ (.hooks _ _)
    split
    · exact .burn
    · exact .nil
  | removeAsk => exact .hooks _ _
  | updatePrice => exact .hooks _ _
  | bidSaved =>
    refine NoZero.append (.refund ?_) (.hooks _ _)
    intro n hn
    rw [Option.map_eq_some_iff] at hn
    obtain ⟨b, hb, rfl⟩ := hn
    exact (hw.bids _ _ hb).pos
  | bought _ _ _ _ _ _ _ _ _ _ _ _ _ _ _ _ _ _ _ hs => exact absurd hh (nosale hs)
  | acceptBid _ _ _ _ _ _ _ _ _ _ _ _ hs => exact absurd hh (nosale (pre := []) hs)
  | acceptCBid _ _ _ _ _ _ _ _ _ _ _ _ hs => exact absurd hh (nosale (pre := []) hs)
  | removeBid coll tok bid hv hf hb => exact NoZero.append (NoZero.one (hw.bids _ _ hb).pos) (.hooks _ _)
  | rejectBid coll tok bidder bid hv hf hown hb => exact NoZero.append (NoZero.one (hw.bids _ _ hb).pos) (.hooks _ _)
  | setCBid coll =>
    refine NoZero.append ?_ (.hooks _ _)
    split
    · rename_i b hb
      exact .one (hw.cbids _ _ hb).pos
    · exact .nil
  | removeCBid coll bid hv hf hb => exact NoZero.append (NoZero.one (hw.cbids _ _ hb).pos) (.hooks _ _)
  | syncAsk => exact .hooks _ _
  | staleAsk => exact .hooks _ _
  | staleBid => exact absurd trivial hm
  | staleCBid => exact absurd trivial hm

/-- What a sale on terms `T` pays, at a trading fee of `t` basis points: if there is a royalty, it comes to at least one unit, and so do the
proceeds. -/
structure Spec.Payable (q : Queries) (t : Nat) (T : Terms) : Prop where
  royalty : royaltyOf q T.coll = 0 ∨ 10^18 ≤ T.price * royaltyOf q T.coll
  proceeds : share t T.price + T.found < T.price * (10^18 - royaltyOf q T.coll) / 10^18

/-- Nor does a sale of which nothing rounds to zero. -/
theorem C98_partial_sale (hr : Reach p me s) (h : execute p ctx sender funds m s = .ok (s', msgs)) (hh : handed msgs ≠ [])
    {T : Terms} {t : Nat} (hT : terms s sender m = some T) (ht : s.params.tradingFee = percent t) (hp : Payable ctx.q t T) :
    NoZero msgs := by
  have hw := hr.wf
  obtain ⟨T', ⟨sh⟩⟩ := sale_shape hw (execute_eff h) hh
  have e := sh.terms
  rw [hT] at e; cases e
  rw [sh.msgs]
  have hn : netFee s T.price = share t T.price := by unfold netFee; rw [ht]; exact percent_share _ _
  have hf : finFee T.price T.finder T.fee = T.found := finFee_share _ _ _
  refine NoZero.append (.refund ?_) (NoZero.append (NoZero.append ?_ ?_) ?_)
  · intro n hn
    rw [Option.map_eq_some_iff] at hn
    obtain ⟨b, hb, rfl⟩ := hn
    unfold oldBid at hb
    split at hb
    all_goals first | cases hb | exact (hw.bids _ _ hb).pos
  · have hpaid := sh.paid
    generalize sh.pay = pay at hpaid
    cases hpaid with
    | royalty info roy h1 h2 h3 h4 h5 h6 =>
      have er : royaltyOf ctx.q T.coll = roy.share := by unfold royaltyOf; rw [h1]; simp [h2]
      have k1 := hp.royalty
      have k2 := hp.proceeds
      rw [er] at k1 k2
      rw [List.cons_append]
      refine NoZero.append (a := [_]) .burn (NoZero.append (.finder _ _) (NoZero.append (a := [_]) (.one ?_) (.one ?_)))
      · have : 10^18 ≤ T.price * roy.share := by rcases k1 with k | k; omega; exact k
        exact Nat.div_pos this (by decide)
      · rw [hn, hf]
        have : (10:Nat)^18 = ONE := rfl
        rw [this] at k2
        omega
    | plain info h1 h2 h3 =>
      have er : royaltyOf ctx.q T.coll = 0 := by
        unfold royaltyOf; rw [h1]
        cases hi : info.royalty with
        | none => simp [hi]
        | some r => simp [hi, h2 r hi]
      have k2 := hp.proceeds
      rw [er, Nat.sub_zero, Nat.mul_div_cancel _ (by decide)] at k2
      rw [List.cons_append]
      refine NoZero.append (a := [_]) .burn (NoZero.append (.finder _ _) (.one ?_))
      rw [hn, hf]
      omega
  · intro to cs hm
    rw [List.mem_singleton] at hm
    cases hm
  · rw [sh.hookInfo]; exact .hooks _ _

/-- Nor does the removal of a stale bid, if the operator's share is at least one unit and less than the bid. -/
theorem C98_partial_stale (h : execute p ctx sender funds m s = .ok (s', msgs)) {r x : Nat}
    (hb : (∃ c t b o, m = .removeStaleBid c t b ∧ s.bids.get? (c, t, b) = some o ∧ o.price = x) ∨
      (∃ c b o, m = .removeStaleCollectionBid c b ∧ s.cbids.get? (c, b) = some o ∧ o.price = x))
    (hrw : s.params.bidRemovalReward = percent r) (h0 : 0 < share r x) (h1 : share r x < x) : NoZero msgs := by
  have e := execute_eff h
  rcases hb with ⟨c, t, b, o, rfl, ho, rfl⟩ | ⟨c, b, o, rfl, ho, rfl⟩
  · cases e with
    | bidSaved _ _ _ hm => cases hm
    | bought _ _ _ _ _ hm => cases hm
    | staleBid coll tok bidder bid n hv hf hop hb' hdur hst hle =>
      rw [ho] at hb'; cases hb'
      rw [hrw, percent_share]
      exact NoZero.append (a := [_]) (.one (by omega)) (NoZero.append (a := [_]) (.one h0) (.hooks _ _))
  · cases e with
    | bidSaved _ _ _ hm => cases hm
    | bought _ _ _ _ _ hm => cases hm
    | staleCBid coll bidder bid n hv hf hop hb' hdur hst hle =>
      rw [ho] at hb'; cases hb'
      rw [hrw, percent_share]
      exact NoZero.append (a := [_]) (.one (by omega)) (NoZero.append (a := [_]) (.one h0) (.hooks _ _))

namespace Sample
/-- bob raises his bid to 70 and gets 60 back -/
example := C98_partial run3 (fun _ _ _ => rfl) (by decide) (us_only (by decide +kernel))
  (run_eq (c := M.ctx w3 (qw w3)) (sender := bob) (funds := us 70) (m := bidMsg) (s := w3.st) (by decide +kernel))
  (fun _ _ _ _ => ⟨trivial, rfl⟩) (C98_partial_plain (Spec.Run.reach run3)
    (run_eq (c := M.ctx w3 (qw w3)) (sender := bob) (funds := us 70) (m := bidMsg) (s := w3.st) (by decide +kernel)) rfl (fun h => h))
/-- alice accepts bob's bid of 60 -/
example := C98_partial run3 (fun _ _ _ => rfl) (by decide) (fun _ => Nat.zero_le _)
  (run_eq (c := M.ctx w3 (qw w3)) (sender := alice) (funds := []) (m := .acceptBid coll 1 bob none) (s := w3.st) (by decide +kernel))
  (fun _ _ _ _ => ⟨trivial, rfl⟩) (C98_partial_sale (Spec.Run.reach run3)
    (run_eq (c := M.ctx w3 (qw w3)) (sender := alice) (funds := []) (m := .acceptBid coll 1 bob none) (s := w3.st) (by decide +kernel))
    (by decide +kernel) (T := ⟨coll, 1, 60, alice, alice, bob, bob, none, some 300⟩) (t := 200) rfl rfl
    ⟨Or.inr (by decide +kernel), by decide +kernel⟩)
example := C98_partial_stale (run_eq (c := Sample.ctx 4000) (sender := oper) (funds := []) (m := .removeStaleBid coll 1 bob) (s := s6)
  (by decide +kernel)) (r := 500) (x := 70) (Or.inl ⟨_, _, _, _, rfl, rfl, rfl⟩) rfl (by decide +kernel) (by decide +kernel)
end Sample

/-! ### C99 an open listing can be bought -/

theorem mulFloor_go {a d b : Nat} (h : d ≤ b * ONE) (hb : a * b ≤ U128MAX) : mulFloor a d = .ok (a * d / ONE) := by
  rw [mulFloor_ok]
  refine ⟨Nat.le_trans ?_ hb, rfl⟩
  calc a * d / ONE ≤ a * (b * ONE) / ONE := Nat.div_le_div_right (Nat.mul_le_mul_left a h)
    _ = a * b := by rw [← Nat.mul_assoc, Nat.mul_div_cancel _ ONE_pos]

theorem percent_le_ONE {f : Nat} (h : f ≤ 10000) : percent f ≤ 100 * ONE := by
  unfold percent ONE; omega

theorem findersFee_go {x : Nat} {finder : Option Addr} {fee : Option Nat} (hx : x * 100 ≤ U128MAX)
    (hf : ∀ f, fee = some f → f ≤ 10000) : findersFee x finder fee = .ok (finFee x finder fee) := by
  unfold findersFee finFee
  cases finder with
  | none => rfl
  | some a =>
    cases fee with
    | none => rfl
    | some f => simp only [mulFloor_go (percent_le_ONE (hf f rfl)) hx]; rfl

theorem payout_go {T : Terms} {t : Nat} (ht : s.params.tradingFee = percent t) (htl : t ≤ 10000)
    (hf : ∀ f, T.fee = some f → f ≤ 10000) (hinfo : ctx.q.collInfo T.coll ≠ none) (hx : T.price * 100 ≤ U128MAX)
    (hp : Payable ctx.q t T) : ∃ ms, payout ctx s T.coll T.price T.payee T.finder T.fee = .ok ms := by
  obtain ⟨info, hi⟩ := Option.ne_none_iff_exists'.mp hinfo
  have hn : T.price * percent t / ONE / 100 = share t T.price := percent_share _ _
  have hff : finFee T.price T.finder T.fee = T.found := finFee_share _ _ _
  have hpr := hp.proceeds
  have hone : (10:Nat)^18 = ONE := rfl
  have hm : T.price * 1 ≤ U128MAX := by omega
  simp only [payout, ht, mulFloor_go (percent_le_ONE htl) hx, hi, orErr, findersFee_go hx hf, ok_bind, hn, hff]
  cases hr : parseRoyalties info.royalty with
  | none =>
    have er : royaltyOf ctx.q T.coll = 0 := by
      unfold royaltyOf; rw [hi]
      unfold parseRoyalties at hr
      cases hi : info.royalty with
      | none => simp [hi]
      | some r => rw [hi] at hr; simp only at hr; split at hr
                  · rename_i h0; simp [hi, h0]
                  · cases hr
    rw [er, Nat.sub_zero, Nat.mul_div_cancel _ (by decide)] at hpr
    have h1 : share t T.price + T.found ≤ T.price := by omega
    have h2 : share t T.price + T.found ≤ U128MAX := by omega
    have h3 : share t T.price ≤ T.price := by omega
    have h4 : T.found ≤ T.price - share t T.price := by omega
    simp [u128, h2, ensure, h1, subChk, h3, h4, ok_bind]
  | some roy =>
    have er : royaltyOf ctx.q T.coll = roy.share := by
      unfold royaltyOf; rw [hi]
      unfold parseRoyalties at hr
      cases hi : info.royalty with
      | none => rw [hi] at hr; cases hr
      | some r => rw [hi] at hr; simp only at hr; split at hr
                  · cases hr
                  · cases hr; simp [hi]
    rw [er, hone] at hpr
    have hle : roy.share ≤ ONE := by
      apply Decidable.byContradiction
      intro hc
      have : ONE - roy.share = 0 := by omega
      rw [this] at hpr; simp at hpr
    have hs := (split_share T.price roy.share ONE ONE_pos hle).1
    have k1 : mulFloor T.price roy.share = .ok (T.price * roy.share / ONE) := mulFloor_go (by omega) hm
    have k2 : mulFloor T.price (ONE - roy.share) = .ok (T.price * (ONE - roy.share) / ONE) := mulFloor_go (by omega) hm
    have h1 : share t T.price + T.found + T.price * roy.share / ONE ≤ T.price := by omega
    have h2 : share t T.price + T.found + T.price * roy.share / ONE ≤ U128MAX := by omega
    have h3 : share t T.price ≤ T.price * (ONE - roy.share) / ONE := by omega
    have h4 : T.found ≤ T.price * (ONE - roy.share) / ONE - share t T.price := by omega
    simp [k1, k2, u128, h2, ensure, h1, subChk, hle, h3, h4, ok_bind]

theorem finalizeSale_go {a : Ask} {x : Nat} {buyer : Addr} {finder recipient : Option Addr} {ms : List Msg}
    (h : payout ctx s a.collection x (a.fundsRecipient.getD a.seller) finder a.findersFee = .ok ms) :
    ∃ r, finalizeSale ctx s a x buyer finder recipient = .ok r := by
  simp [finalizeSale, h, ok_bind]

theorem isValid_go {r : ExpiryRange} {now e : Nat} (hr : r.min ≤ r.max) (h1 : now + r.min * NS < e) (h2 : e ≤ now + r.max * NS)
    (h3 : now + r.max * NS ≤ U64MAX) : r.isValid now e = .ok () := by
  have h4 : now + r.min * NS ≤ U64MAX := Nat.le_trans (Nat.add_le_add_left (Nat.mul_le_mul_right _ hr) _) h3
  have e1 : plusSeconds now r.min = .ok (now + r.min * NS) := plusSeconds_ok.mpr ⟨h4, rfl⟩
  have e2 : plusSeconds now r.max = .ok (now + r.max * NS) := plusSeconds_ok.mpr ⟨h3, rfl⟩
  unfold ExpiryRange.isValid
  rw [e1, ok_bind, ensure_eq h1, ok_bind, e2, ok_bind]
  exact ensure_eq h2

theorem feeOk_go {fee : Option Nat} (h : ∀ f, fee = some f → percent f ≤ s.params.maxFindersFee) : feeOk s fee = .ok () := by
  unfold feeOk
  cases fee with
  | none => rfl
  | some f => exact ensure_eq (h f rfl)

theorem payout_params {s1 : State} {coll : Addr} {x : Nat} {to : Addr} {finder : Option Addr} {fee : Option Nat}
    (h : s1.params = s.params) : payout ctx s1 coll x to finder fee = payout ctx s coll x to finder fee := by
  unfold payout; rw [h]

theorem setBid_go {c : Addr} {t e : Nat} {f : Option Addr} {fee : Option Nat} {r : Option Addr} {now : Bool} {a : Ask} {ms : List Msg}
    (hw : WF p me s)
    (ha : s.asks.get? (c, t) = some a) (hty : a.saleType = .fixedPrice) (hact : a.isActive = true) (hlive : ctx.time < a.expiresAt)
    (hres : ∀ r, a.reserveFor = some r → r = sender) (hown : ctx.q.ownerOf c (tokStr t) = some a.seller)
    (hmin : s.params.minPrice ≤ a.price) (hexp : s.params.bidExpiry.isValid ctx.time e = .ok ())
    (hf : f ≠ some sender) (hfee : ∀ n, fee = some n → percent n ≤ s.params.maxFindersFee)
    (hpay : payout ctx s c a.price (a.fundsRecipient.getD a.seller) f a.findersFee = .ok ms) :
    ∃ o, executeSetBid ctx sender [⟨NATIVE, a.price⟩] c t e f fee r now s = .ok o := by
  have hg := hw.asks _ _ ha
  have hk := hg.key
  simp only [Prod.mk.injEq] at hk
  obtain ⟨k1, k2⟩ := hk
  have h1 : mustPay [⟨NATIVE, a.price⟩] NATIVE = .ok a.price := mustPay_ok.mpr ⟨rfl, hg.pos⟩
  have h2 : ¬ a.expiresAt ≤ ctx.time := by omega
  obtain ⟨r', h4⟩ := finalizeSale_go (s := { s with bids := s.bids.erase (c, t, sender), asks := s.asks.erase (c, t) })
    (a := a) (x := a.price) (buyer := sender) (finder := f) (recipient := r) (ms := ms) (ctx := ctx)
    (by rw [k1]; exact (payout_params (by rfl)).trans hpay)
  simp only [executeSetBid, refundOld_eq, ensure_eq hf, feeOk_go hfee, h1, ensure_eq hmin, hexp, ok_bind, ha, ensure_eq h2,
    ensure_eq hact, ensure_eq hres, hty, Nat.lt_irrefl, if_false, k1, k2, hown, orErr, h4]
  exact ⟨_, rfl⟩

/-- A buyer with the price in hand can buy a listing that is for sale at a fixed price, active, not expired, open to them and still
owned by the seller, from a conforming collection for which the contract is approved; the sale then completes and the recipient owns the token.
Provided nothing rounds to zero, the price is not below the current minimum and the expiry given is in the range for bids. -/
theorem C99_buy {w : World State} (h : Run p me honest (w, [])) {q : Queries} (hq : (sys p me honest).queriesOk w q)
    {c : Addr} {t e : Nat} {a : Ask} {ty : SaleType} {f : Option Addr} {fee : Option Nat} {x : Addr} {T : Terms} {tf : Nat}
    (ha : w.st.asks.get? (c, t) = some a) (hty : a.saleType = .fixedPrice) (hact : a.isActive = true) (hlive : w.time < a.expiresAt)
    (hres : ∀ r, a.reserveFor = some r → r = sender) (hc : honest c) (hown : w.owner c (tokStr t) = some a.seller)
    (happ : w.approved c (tokStr t) = true) (hinfo : q.collInfo c ≠ none) (hfit : a.price * 100 ≤ U128MAX)
    (hmin : w.st.params.minPrice ≤ a.price) (h1 : w.time + w.st.params.bidExpiry.min * NS < e)
    (h2 : e ≤ w.time + w.st.params.bidExpiry.max * NS) (h3 : w.time + w.st.params.bidExpiry.max * NS ≤ U64MAX)
    (hf : f ≠ some sender) (hfv : ∀ y, f = some y → p.valid y = true)
    (hfee : ∀ n, fee = some n → percent n ≤ w.st.params.maxFindersFee)
    (hm : (m = .setBid c t e ty f fee ∨ m = .buyNow c t e f fee) ∧ x = sender ∨ m = .buyFor c t e f fee x ∧ p.valid x = true)
    (hne : sender ≠ me) (hfunds : a.price ≤ w.bank sender ustars)
    (hT : T = ⟨c, t, a.price, a.seller, a.fundsRecipient.getD a.seller, sender, x, f, a.findersFee⟩)
    (htf : w.st.params.tradingFee = percent tf) (hp : Payable q tf T) :
    ∃ s' msgs w', execute p ((sys p me honest).ctx w q) sender [⟨ustars, a.price⟩] m w.st = .ok (s', msgs) ∧
      handed msgs = [(c, tokStr t, x)] ∧ s'.asks.get? (c, t) = none ∧
      (sys p me honest).Steps (w, []) (w', []) ∧ w'.st = s' ∧ w'.owner c (tokStr t) = some x := by
  have hr := Spec.Run.reach h
  have hw : WF p me w.st := hr.wf
  have hg := hw.asks _ _ ha
  have hk := hg.key
  simp only [Prod.mk.injEq] at hk
  have hv : p.valid c = true := by rw [← hk.1]; exact hg.valid
  have hle : tf ≤ 10000 := by
    obtain ⟨n, e1, e2⟩ := hw.params.trading
    rw [htf] at e1
    unfold percent at e1; omega
  obtain ⟨ms, hpay⟩ := payout_go (s := w.st) (ctx := (sys p me honest).ctx w q) (T := T) htf hle (by subst hT; exact hg.fee)
    (by subst hT; exact hinfo) (by subst hT; exact hfit) hp
  have hown' : ((sys p me honest).ctx w q).q.ownerOf c (tokStr t) = some a.seller := (hq c _ hc).trans hown
  rw [ustars_eq] at hfunds ⊢
  have go : ∀ r now, ∃ o, executeSetBid ((sys p me honest).ctx w q) sender [⟨NATIVE, a.price⟩] c t e f fee r now w.st = .ok o := by
    intro r now
    exact setBid_go hw ha hty hact hlive hres hown' hmin (isValid_go hw.params.bid h1 h2 h3) hf hfee (by subst hT; exact hpay)
  have hmf : maybeAddr p f = .ok f := by
    cases f with
    | none => rfl
    | some y => simp [maybeAddr, addrValidate, hfv y rfl, ok_bind]
  have hex : ∃ o, execute p ((sys p me honest).ctx w q) sender [⟨NATIVE, a.price⟩] m w.st = .ok o := by
    rcases hm with ⟨rfl | rfl, rfl⟩ | ⟨rfl, hvx⟩
    · simp only [execute, addrValidate, hv, if_true, ok_bind, hmf]; exact go _ _
    · simp only [execute, addrValidate, hv, if_true, ok_bind, hmf]; exact go _ _
    · simp only [execute, addrValidate, hv, hvx, if_true, ok_bind, hmf]; exact go _ _
  obtain ⟨⟨s', msgs⟩, hex⟩ := hex
  have hterms : terms w.st sender m = some T := by
    subst hT
    rcases hm with ⟨rfl | rfl, rfl⟩ | ⟨rfl, hvx⟩ <;> simp only [terms, listed, ha, Option.map_some]
  obtain ⟨b, hb, hbc, hbt⟩ : ∃ b, bidArgs m = some b ∧ b.coll = c ∧ b.tok = t := by
    rcases hm with ⟨rfl | rfl, rfl⟩ | ⟨rfl, hvx⟩ <;> exact ⟨_, rfl, rfl, rfl⟩
  have hh : handed msgs ≠ [] := by
    have ef := execute_eff hex
    have nobid : ∀ b' price, bidArgs m = some b' → [(⟨NATIVE, a.price⟩ : Coin)] = [⟨NATIVE, price⟩] →
        (∀ ask, w.st.asks.get? (b'.coll, b'.tok) = some ask → ask.saleType = .fixedPrice → price < ask.price) → False := by
      intro b' price hb' he hask
      rw [hb] at hb'; cases hb'
      simp only [List.cons.injEq, Coin.mk.injEq, true_and, and_true] at he
      subst he
      have := hask a (by rw [hbc, hbt]; exact ha) hty
      omega
    cases ef with
    | bidSaved m b' price hm' hv hfinder hfee hfunds hpos hmin hexp hask hno =>
      exact (nobid b' price hm' hfunds (fun ask h1 h2 => (hask ask h1).2.2.2.1 h2)).elim
    | bought _ _ _ _ _ _ _ _ _ _ _ _ _ _ _ _ _ _ _ hs =>
      obtain ⟨pay, h1, rfl⟩ := hs.shape
      simp [handed_append, handed]
    | _ => cases hb
  obtain ⟨T', c1, c2, _, c4, _⟩ := C49_consent hr hex hh
  rw [hterms] at c1; cases c1
  have hhand : handed msgs = [(c, tokStr t, x)] := by rw [c2, hT]
  have hgone : s'.asks.get? (c, t) = none := by rw [hT] at c4; exact c4
  obtain ⟨w', g1, g2, g3, _, g5, _⟩ := C98_partial h hq hne (by
      intro d
      rw [nat_coin]
      unfold nat
      split
      · rename_i hd; subst hd; exact hfunds
      · exact Nat.zero_le _) hex
    (by intro c' t' to hm'; rw [hhand, List.mem_singleton] at hm'; cases hm'; exact ⟨hc, happ⟩)
    (C98_partial_sale hr hex hh hterms htf hp)
  exact ⟨s', msgs, w', hex, hhand, hgone, (Sys.Steps.single g1).trans g2, g3, g5 _ _ _ (by rw [hhand]; exact List.mem_singleton_self _)⟩

/-! ### C100 the owner can accept a standing bid -/

/-- The owner of a token can accept an unexpired bid for it, or for its collection, once trading has started; the sale completes
and the bidder owns the token. -/
theorem C100_accept {w : World State} (h : Run p me honest (w, [])) {q : Queries} (hq : (sys p me honest).queriesOk w q)
    {c : Addr} {t : Nat} {b : Addr} {f : Option Addr} {x ex : Nat} {fee : Option Nat} {T : Terms} {tf : Nat}
    (hm : (m = .acceptBid c t b f ∧ ∃ o, w.st.bids.get? (c, t, b) = some o ∧ o.price = x ∧ o.findersFee = fee ∧ o.expiresAt = ex) ∨
      (m = .acceptCollectionBid c t b f ∧ ∃ o, w.st.cbids.get? (c, b) = some o ∧ o.price = x ∧ o.findersFee = fee ∧ o.expiresAt = ex))
    (hlive : w.time < ex) (hvb : p.valid b = true) (hfv : ∀ y, f = some y → p.valid y = true) (hc : honest c)
    (hown : w.owner c (tokStr t) = some sender) (happ : w.approved c (tokStr t) = true) (hinfo : q.collInfo c ≠ none)
    (htr : ∀ i tm, q.collInfo c = some i → i.start = some tm → tm ≤ w.time) (hfit : x * 100 ≤ U128MAX) (hne : sender ≠ me)
    (hT : T = ⟨c, t, x, sender, sender, b, b, f, fee⟩) (htf : w.st.params.tradingFee = percent tf) (hp : Payable q tf T) :
    ∃ s' msgs w', execute p ((sys p me honest).ctx w q) sender [] m w.st = .ok (s', msgs) ∧
      handed msgs = [(c, tokStr t, b)] ∧ s'.asks.get? (c, t) = none ∧
      (sys p me honest).Steps (w, []) (w', []) ∧ w'.st = s' ∧ w'.owner c (tokStr t) = some b := by
  have hr := Spec.Run.reach h
  have hw : WF p me w.st := hr.wf
  have hle : tf ≤ 10000 := by
    obtain ⟨n, e1, e2⟩ := hw.params.trading
    rw [htf] at e1
    unfold percent at e1; omega
  have hgood : p.valid c = true ∧ ∀ n, fee = some n → n ≤ 10000 := by
    rcases hm with ⟨_, o, ho, rfl, rfl, rfl⟩ | ⟨_, o, ho, rfl, rfl, rfl⟩
    · have g := hw.bids _ _ ho
      have hk := g.key
      simp only [Prod.mk.injEq] at hk
      exact ⟨by rw [← hk.1]; exact g.valid, g.fee⟩
    · have g := hw.cbids _ _ ho
      have hk := g.key
      simp only [Prod.mk.injEq] at hk
      exact ⟨by rw [← hk.1]; exact g.valid, g.fee⟩
  obtain ⟨hv, hfl⟩ := hgood
  obtain ⟨ms, hpay⟩ := payout_go (s := w.st) (ctx := (sys p me honest).ctx w q) (T := T) htf hle (by subst hT; exact hfl)
    (by subst hT; exact hinfo) (by subst hT; exact hfit) hp
  have hown' : ((sys p me honest).ctx w q).q.ownerOf c (tokStr t) = some sender := (hq c _ hc).trans hown
  have hoo : onlyOwner ((sys p me honest).ctx w q) sender c t = .ok () := by
    simp [onlyOwner, hown', orErr, ok_bind, ensure]
  have htt : onlyTradable ((sys p me honest).ctx w q) c = .ok () := by
    unfold onlyTradable
    split
    · rename_i i hi
      split
      · rename_i tm htm
        have : tm ≤ w.time := htr i tm hi htm
        exact ensure_eq (by show ¬ w.time < tm; omega)
      · rfl
    · rfl
  have hmf : maybeAddr p f = .ok f := by
    cases f with
    | none => rfl
    | some y => simp [maybeAddr, addrValidate, hfv y rfl, ok_bind]
  have hex : ∃ o, execute p ((sys p me honest).ctx w q) sender [] m w.st = .ok o := by
    subst hT
    rcases hm with ⟨rfl, o, ho, rfl, rfl, rfl⟩ | ⟨rfl, o, ho, rfl, rfl, rfl⟩
    · have hl : ¬ o.expiresAt ≤ ((sys p me honest).ctx w q).time := by show ¬ o.expiresAt ≤ w.time; omega
      obtain ⟨r, hfin⟩ := finalizeSale_go (s := { w.st with asks := w.st.asks.erase (c, t), bids := w.st.bids.erase (c, t, b) })
        (a := ⟨.auction, c, t, sender, o.price, some sender, none, o.findersFee, o.expiresAt, true⟩) (x := o.price) (buyer := b)
        (finder := f) (recipient := none) (ms := ms) (ctx := (sys p me honest).ctx w q)
        ((payout_params (by rfl)).trans hpay)
      simp only [execute, addrValidate, hv, hvb, if_true, ok_bind, hmf, executeAcceptBid, nonpayable, ensure, hoo, htt, ho, orErr,
        if_pos hl, hfin]
      exact ⟨_, rfl⟩
    · have hl : ¬ o.expiresAt ≤ ((sys p me honest).ctx w q).time := by show ¬ o.expiresAt ≤ w.time; omega
      obtain ⟨r, hfin⟩ := finalizeSale_go (s := { w.st with cbids := w.st.cbids.erase (c, b), asks := w.st.asks.erase (c, t) })
        (a := ⟨.auction, c, t, sender, o.price, some sender, none, o.findersFee, o.expiresAt, true⟩) (x := o.price) (buyer := b)
        (finder := f) (recipient := none) (ms := ms) (ctx := (sys p me honest).ctx w q)
        ((payout_params (by rfl)).trans hpay)
      simp only [execute, addrValidate, hv, hvb, if_true, ok_bind, hmf, executeAcceptCollectionBid, nonpayable, ensure, hoo, htt, ho,
        orErr, if_pos hl, hfin]
      exact ⟨_, rfl⟩
  obtain ⟨⟨s', msgs⟩, hex⟩ := hex
  have hterms : terms w.st sender m = some T := by
    subst hT
    rcases hm with ⟨rfl, o, ho, rfl, rfl, rfl⟩ | ⟨rfl, o, ho, rfl, rfl, rfl⟩ <;> simp only [terms, ho, Option.map_some]
  have hh : handed msgs ≠ [] := by
    have ef := execute_eff hex
    rcases hm with ⟨rfl, _⟩ | ⟨rfl, _⟩
    · cases ef with
      | bidSaved _ _ _ hm => cases hm
      | bought _ _ _ _ _ hm => cases hm
      | acceptBid _ _ _ _ _ _ _ _ _ _ _ _ hs =>
        obtain ⟨pay, h1, rfl⟩ := hs.shape
        simp [handed_append, handed]
    · cases ef with
      | bidSaved _ _ _ hm => cases hm
      | bought _ _ _ _ _ hm => cases hm
      | acceptCBid _ _ _ _ _ _ _ _ _ _ _ _ hs =>
        obtain ⟨pay, h1, rfl⟩ := hs.shape
        simp [handed_append, handed]
  obtain ⟨T', c1, c2, _, c4, _⟩ := C49_consent hr hex hh
  rw [hterms] at c1; cases c1
  have hhand : handed msgs = [(c, tokStr t, b)] := by rw [c2, hT]
  have hgone : s'.asks.get? (c, t) = none := by rw [hT] at c4; exact c4
  obtain ⟨w', g1, g2, g3, _, g5, _⟩ := C98_partial h hq hne (fun _ => Nat.zero_le _) hex
    (by intro c' t' to hm'; rw [hhand, List.mem_singleton] at hm'; cases hm'; exact ⟨hc, happ⟩)
    (C98_partial_sale hr hex hh hterms htf hp)
  exact ⟨s', msgs, w', hex, hhand, hgone, (Sys.Steps.single g1).trans g2, g3, g5 _ _ _ (by rw [hhand]; exact List.mem_singleton_self _)⟩

/-! ### C101 orders can be placed -/

theorem maybeAddr_go {f : Option Addr} (h : ∀ y, f = some y → p.valid y = true) : maybeAddr p f = .ok f := by
  cases f with
  | none => rfl
  | some y => simp [maybeAddr, addrValidate, h y rfl, ok_bind]

/-- The owner of a token can list it: with the contract approved, trading started, price, fee and expiry within bounds and exactly the
listing fee attached, the call is accepted and completes. -/
theorem C101_ask {w : World State} (h : Run p me honest (w, [])) {q : Queries} (hq : (sys p me honest).queriesOk w q)
    {ty : SaleType} {c : Addr} {t x : Nat} {rec res : Option Addr} {fee : Option Nat} {e : Nat} (hv : p.valid c = true)
    (hrec : ∀ y, rec = some y → p.valid y = true) (hres : ∀ y, res = some y → p.valid y = true ∧ y ≠ sender ∧ ty = .fixedPrice)
    (hpos : 0 < x) (hmin : w.st.params.minPrice ≤ x) (hmax : x ≤ maxAsk) (hc : honest c) (hown : w.owner c (tokStr t) = some sender)
    (happ : q.approval c (tokStr t) = true) (htr : ∀ i tm, q.collInfo c = some i → i.start = some tm → tm ≤ w.time)
    (h1 : w.time + w.st.params.askExpiry.min * NS < e) (h2 : e ≤ w.time + w.st.params.askExpiry.max * NS)
    (h3 : w.time + w.st.params.askExpiry.max * NS ≤ U64MAX) (hfee : ∀ n, fee = some n → percent n ≤ w.st.params.maxFindersFee)
    (hne : sender ≠ me) (hfunds : w.st.params.listingFee ≤ w.bank sender ustars)
    (hf : funds = if w.st.params.listingFee = 0 then [] else [⟨ustars, w.st.params.listingFee⟩]) :
    ∃ s' msgs w', execute p ((sys p me honest).ctx w q) sender funds (.setAsk ty c t ⟨ustars, x⟩ rec res fee e) w.st = .ok (s', msgs) ∧
      s'.asks.get? (c, t) = some ⟨ty, c, t, sender, x, rec, res, fee, e, true⟩ ∧
      (sys p me honest).Steps (w, []) (w', []) ∧ w'.st = s' := by
  have hr := Spec.Run.reach h
  have hw : WF p me w.st := hr.wf
  have hown' : ((sys p me honest).ctx w q).q.ownerOf c (tokStr t) = some sender := (hq c _ hc).trans hown
  have hoo : onlyOwner ((sys p me honest).ctx w q) sender c t = .ok () := by
    simp [onlyOwner, hown', orErr, ok_bind, ensure]
  have htt : onlyTradable ((sys p me honest).ctx w q) c = .ok () := by
    unfold onlyTradable
    split
    · rename_i i hi
      split
      · rename_i tm htm
        have : tm ≤ w.time := htr i tm hi htm
        exact ensure_eq (by show ¬ w.time < tm; omega)
      · rfl
    · rfl
  have hpay : mayPay funds NATIVE = .ok w.st.params.listingFee := by
    rw [mayPay_ok, hf]
    split
    · rename_i h0; exact Or.inl ⟨rfl, h0⟩
    · exact Or.inr (by rw [ustars_eq])
  have hpv : priceValidate w.st ⟨ustars, x⟩ = .ok () := by
    unfold priceValidate
    rw [ensure_eq (by exact ⟨by show x ≠ 0; omega, ustars_eq⟩), ok_bind]
    exact ensure_eq hmin
  have hap' : ((sys p me honest).ctx w q).q.approval c (tokStr t) = true := happ
  have hiv : w.st.params.askExpiry.isValid ((sys p me honest).ctx w q).time e = .ok () := isValid_go hw.params.ask h1 h2 h3
  have hmx : (⟨ustars, x⟩ : Coin).amount ≤ MAX_FIXED_PRICE_ASK_AMOUNT := hmax
  have hrs : ∀ r, res = some r → r ≠ sender ∧ ty = .fixedPrice := fun r hr => (hres r hr).2
  have hex : ∃ o, execute p ((sys p me honest).ctx w q) sender funds (.setAsk ty c t ⟨ustars, x⟩ rec res fee e) w.st = .ok o := by
    simp only [execute, addrValidate, hv, if_true, ok_bind, maybeAddr_go hrec, maybeAddr_go (fun y hy => (hres y hy).1), executeSetAsk,
      hpv, ensure_eq hmx, hoo, htt, ensure_eq hap', hiv, hpay, feeOk_go hfee, ensure_eq hrs]
    exact ⟨_, rfl⟩
  obtain ⟨⟨s', msgs⟩, hex⟩ := hex
  have ef := execute_eff hex
  have hs : s'.asks.get? (c, t) = some ⟨ty, c, t, sender, x, rec, res, fee, e, true⟩ ∧ handed msgs = [] := by
    cases ef with
    | bidSaved _ _ _ hm => cases hm
    | bought _ _ _ _ _ hm => cases hm
    | setAsk =>
      refine ⟨AMap.get?_insert_self _ _ _, ?_⟩
      rw [handed_append]
      unfold askHook
      rw [handed_hooks]
      split <;> rfl
  obtain ⟨w', g1, g2, g3, _⟩ := C98_partial h hq hne (by
      intro d
      rw [hf]
      split
      · exact Nat.zero_le _
      · rw [ustars_eq] at *
        rw [nat_coin]
        unfold nat
        split
        · rename_i hd; subst hd; exact hfunds
        · exact Nat.zero_le _) hex (by intro c' t' to hm'; rw [hs.2] at hm'; cases hm')
    (C98_partial_plain hr hex hs.2 (fun h => h))
  exact ⟨s', msgs, w', hex, hs.1, (Sys.Steps.single g1).trans g2, g3⟩

/-- Anybody can bid for a token that is not listed, listed for auction at no more than the bid, or listed at a fixed price above the bid;
a listing must be open to them. The call completes. -/
theorem C101_bid {w : World State} (h : Run p me honest (w, [])) {q : Queries} (hq : (sys p me honest).queriesOk w q)
    {ty : SaleType} {c : Addr} {t x : Nat} {fee : Option Nat} {e : Nat} (hv : p.valid c = true)
    (hpos : 0 < x) (hmin : w.st.params.minPrice ≤ x)
    (hask : ∀ a, w.st.asks.get? (c, t) = some a → a.isActive = true ∧ w.time < a.expiresAt ∧
      (∀ r, a.reserveFor = some r → r = sender) ∧ (a.saleType = .fixedPrice → x < a.price) ∧ (a.saleType = .auction → a.price ≤ x))
    (h1 : w.time + w.st.params.bidExpiry.min * NS < e) (h2 : e ≤ w.time + w.st.params.bidExpiry.max * NS)
    (h3 : w.time + w.st.params.bidExpiry.max * NS ≤ U64MAX) (hfee : ∀ n, fee = some n → percent n ≤ w.st.params.maxFindersFee)
    (hne : sender ≠ me) (hfunds : x ≤ w.bank sender ustars) :
    ∃ s' msgs w', execute p ((sys p me honest).ctx w q) sender [⟨ustars, x⟩] (.setBid c t e ty none fee) w.st = .ok (s', msgs) ∧
      s'.bids.get? (c, t, sender) = some ⟨c, t, sender, x, fee, e⟩ ∧
      (sys p me honest).Steps (w, []) (w', []) ∧ w'.st = s' := by
  have hr := Spec.Run.reach h
  have hw : WF p me w.st := hr.wf
  rw [ustars_eq] at hfunds ⊢
  have hmp : mustPay [⟨NATIVE, x⟩] NATIVE = .ok x := mustPay_ok.mpr ⟨rfl, hpos⟩
  have hiv : w.st.params.bidExpiry.isValid ((sys p me honest).ctx w q).time e = .ok () := isValid_go hw.params.bid h1 h2 h3
  have hnf : (none : Option Addr) ≠ some sender := by simp
  have hex : ∃ o, execute p ((sys p me honest).ctx w q) sender [⟨NATIVE, x⟩] (.setBid c t e ty none fee) w.st = .ok o := by
    simp only [execute, addrValidate, hv, if_true, ok_bind, maybeAddr, executeSetBid, refundOld_eq, ensure_eq hnf, feeOk_go hfee, hmp,
      ensure_eq hmin, hiv]
    cases ha : w.st.asks.get? (c, t) with
    | none => exact ⟨_, rfl⟩
    | some a =>
      obtain ⟨a1, a2, a3, a4, a5⟩ := hask a ha
      have hl : ¬ a.expiresAt ≤ ((sys p me honest).ctx w q).time := by show ¬ a.expiresAt ≤ w.time; omega
      simp only [ensure_eq hl, ensure_eq a1, ensure_eq a3, ok_bind]
      cases hty : a.saleType with
      | fixedPrice =>
        have := a4 hty
        simp only [if_neg (by omega : ¬ a.price < x), if_pos this]
        exact ⟨_, rfl⟩
      | auction =>
        have := a5 hty
        simp only [if_neg (by omega : ¬ x < a.price)]
        exact ⟨_, rfl⟩
  obtain ⟨⟨s', msgs⟩, hex⟩ := hex
  have ef := execute_eff hex
  have hs : s'.bids.get? (c, t, sender) = some ⟨c, t, sender, x, fee, e⟩ ∧ handed msgs = [] := by
    cases ef with
    | bidSaved m b price hm hv hfinder hfee hfunds =>
      cases hm
      cases hfunds
      refine ⟨AMap.get?_insert_self _ _ _, ?_⟩
      rw [handed_append, (refund_pay _ _).handed]
      exact handed_hooks _ _
    | bought m b price a sale hm hv hfinder hfee hfunds hpos hmin ha hlive hact hres hty hprice =>
      cases hm
      cases hfunds
      have := (hask a ha).2.2.2.1 hty
      omega
  obtain ⟨w', g1, g2, g3, _⟩ := C98_partial h hq hne (by
      intro d
      rw [nat_coin]
      unfold nat
      split
      · rename_i hd; subst hd; exact hfunds
      · exact Nat.zero_le _) hex (by intro c' t' to hm'; rw [hs.2] at hm'; cases hm')
    (C98_partial_plain hr hex hs.2 (fun h => h))
  exact ⟨s', msgs, w', hex, hs.1, (Sys.Steps.single g1).trans g2, g3⟩

/-- Anybody can bid for a collection. -/
theorem C101_cbid {w : World State} (h : Run p me honest (w, [])) {q : Queries} (hq : (sys p me honest).queriesOk w q)
    {c : Addr} {x : Nat} {fee : Option Nat} {e : Nat} (hv : p.valid c = true) (hpos : 0 < x) (hmin : w.st.params.minPrice ≤ x)
    (h1 : w.time + w.st.params.bidExpiry.min * NS < e) (h2 : e ≤ w.time + w.st.params.bidExpiry.max * NS)
    (h3 : w.time + w.st.params.bidExpiry.max * NS ≤ U64MAX) (hfee : ∀ n, fee = some n → percent n ≤ w.st.params.maxFindersFee)
    (hne : sender ≠ me) (hfunds : x ≤ w.bank sender ustars) :
    ∃ s' msgs w', execute p ((sys p me honest).ctx w q) sender [⟨ustars, x⟩] (.setCollectionBid c e fee) w.st = .ok (s', msgs) ∧
      s'.cbids.get? (c, sender) = some ⟨c, sender, x, fee, e⟩ ∧
      (sys p me honest).Steps (w, []) (w', []) ∧ w'.st = s' := by
  have hr := Spec.Run.reach h
  have hw : WF p me w.st := hr.wf
  rw [ustars_eq] at hfunds ⊢
  have hmp : mustPay [⟨NATIVE, x⟩] NATIVE = .ok x := mustPay_ok.mpr ⟨rfl, hpos⟩
  have hiv : w.st.params.bidExpiry.isValid ((sys p me honest).ctx w q).time e = .ok () := isValid_go hw.params.bid h1 h2 h3
  have hex : ∃ o, execute p ((sys p me honest).ctx w q) sender [⟨NATIVE, x⟩] (.setCollectionBid c e fee) w.st = .ok o := by
    simp only [execute, addrValidate, hv, if_true, ok_bind, executeSetCollectionBid, feeOk_go hfee, hmp, ensure_eq hmin, hiv]
    exact ⟨_, rfl⟩
  obtain ⟨⟨s', msgs⟩, hex⟩ := hex
  have ef := execute_eff hex
  have hs : s'.cbids.get? (c, sender) = some ⟨c, sender, x, fee, e⟩ ∧ handed msgs = [] := by
    cases ef with
    | bidSaved _ _ _ hm => cases hm
    | bought _ _ _ _ _ hm => cases hm
    | setCBid coll expires fee price hv hfunds =>
      cases hfunds
      refine ⟨AMap.get?_insert_self _ _ _, ?_⟩
      rw [handed_append]
      unfold cbidHook
      rw [handed_hooks]
      split <;> rfl
  obtain ⟨w', g1, g2, g3, _⟩ := C98_partial h hq hne (by
      intro d
      rw [nat_coin]
      unfold nat
      split
      · rename_i hd; subst hd; exact hfunds
      · exact Nat.zero_le _) hex (by intro c' t' to hm'; rw [hs.2] at hm'; cases hm')
    (C98_partial_plain hr hex hs.2 (fun h => h))
  exact ⟨s', msgs, w', hex, hs.1, (Sys.Steps.single g1).trans g2, g3⟩

namespace Sample
/-- alice lists token 1 in the world after the bids -/
def v4 : World State := at_ w3 alice (us 3) askMsg
theorem vrun4 : Run P self hon (v4, [.fairBurn (us 3)]) :=
  call2 run3 (by decide) (us_only (by decide +kernel)) (by decide +kernel) (by decide +kernel)
def v5 : World State := { v4 with bank := takeFunds v4.bank self (us 3) }
theorem vrun5 : Run P self hon (v5, []) :=
  Spec.Run.step vrun4 (Sys.Step.fairBurn (S := M) v4 (us 3) [] (us_only (by decide +kernel)))
/-- carol buys it for oper, with artist as finder -/
example := C99_buy vrun5 (q := qw v5) (fun _ _ _ => rfl) (sender := carol) (c := coll) (t := 1) (e := 3000 * NSs) (ty := .auction)
  (a := ⟨.fixedPrice, coll, 1, alice, 101, none, none, some 500, 2000 * NSs, true⟩) (f := some artist) (fee := none) (x := oper)
  (m := .buyFor coll 1 (3000 * NSs) (some artist) none oper)
  (tf := 200) (by decide +kernel) rfl rfl (by decide +kernel) (by intro r h; cases h) trivial (by decide +kernel) rfl (by decide +kernel)
  (by decide +kernel) (by decide +kernel) (by decide +kernel) (by decide +kernel) (by decide +kernel) (by decide +kernel)
  (by rintro y ⟨⟩; decide) (by rintro y ⟨⟩) (Or.inr ⟨rfl, by decide⟩) (by decide) (by decide +kernel) rfl rfl
  ⟨Or.inr (by decide +kernel), by decide +kernel⟩
/-- alice accepts carol's collection bid -/
example := C100_accept run3 (q := qw w3) (fun _ _ _ => rfl) (sender := alice) (c := coll) (t := 1) (b := carol) (f := none) (x := 50)
  (fee := none) (ex := 3000 * NSs) (m := .acceptCollectionBid coll 1 carol none) (tf := 200)
  (Or.inr ⟨rfl, ⟨coll, carol, 50, none, 3000 * NSs⟩, by decide +kernel, rfl, rfl, rfl⟩) (by decide +kernel) (by decide)
  (by rintro y ⟨⟩) trivial (by decide +kernel) rfl (by decide +kernel)
  (by intro i tm hi hs; cases hi; cases hs) (by decide +kernel) (by decide) rfl rfl ⟨Or.inr (by decide +kernel), by decide +kernel⟩
example := C101_ask run3 (q := qw w3) (fun _ _ _ => rfl) (sender := alice) (ty := .fixedPrice) (c := coll) (t := 1) (x := 101) (rec := none)
  (res := some bob) (fee := some 500) (e := 2000 * NSs) (funds := us 3) (by decide) (by rintro y ⟨⟩) (by rintro y ⟨⟩; decide)
  (by decide) (by decide +kernel) (by decide +kernel) trivial (by decide +kernel) rfl (by intro i tm hi hs; cases hi; cases hs)
  (by decide +kernel) (by decide +kernel) (by decide +kernel) (by rintro n ⟨⟩; decide +kernel) (by decide) (by decide +kernel)
  (by decide +kernel)
example := C101_bid vrun5 (q := qw v5) (fun _ _ _ => rfl) (sender := carol) (ty := .fixedPrice) (c := coll) (t := 1) (x := 100)
  (fee := some 500) (e := 2000 * NSs) (by decide) (by decide) (by decide +kernel)
  (by
    intro a ha
    have : a = ⟨.fixedPrice, coll, 1, alice, 101, none, none, some 500, 2000 * NSs, true⟩ := by
      have h2 : v5.st.asks.get? (coll, 1) = some ⟨.fixedPrice, coll, 1, alice, 101, none, none, some 500, 2000 * NSs, true⟩ := by
        decide +kernel
      rw [ha] at h2; exact Option.some.inj h2
    subst this
    decide +kernel)
  (by decide +kernel) (by decide +kernel) (by decide +kernel) (by rintro n ⟨⟩; decide +kernel) (by decide) (by decide +kernel)
example := C101_cbid run3 (q := qw w3) (fun _ _ _ => rfl) (sender := bob) (c := coll) (x := 100)
  (fee := some 500) (e := 2000 * NSs) (by decide) (by decide) (by decide +kernel)
  (by decide +kernel) (by decide +kernel) (by decide +kernel) (by rintro n ⟨⟩; decide +kernel) (by decide) (by decide +kernel)
end Sample

end Verif.V1

/-
Reserve auction: a call depends on its own auction only, and the end-block hook does nothing but settle calls (C123).
-/
import Verif.Base.Keep
import Verif.Auction.PropsHooks

namespace Verif.Auction
open Verif Spec

variable {p : Params} {me : Addr}

namespace Spec

/-- The contract as it would be if token `k`'s were the only auction. -/
def only (k : Key) (s : State) : State := { s with auctions := s.auctions.keep (fun k' _ => decide (k' = k)) }

/-- The same for a result. -/
def onlyRes (k : Key) (r : Res (State × List Msg)) : Res (State × List Msg) := r.map (fun x => (only k x.1, x.2))

/-- Settle calls for the tokens of a list, one after the other in the same block; it does not matter who calls. -/
inductive Settles (p : Params) (ctx : Ctx) : List Key → State → State → List Msg → Prop where
  | nil (s : State) : Settles p ctx [] s s []
  | cons {k : Key} {ks : List Key} {s s1 s' : State} {m1 m2 : List Msg}
      (h : ∀ sender, execute p ctx sender [] (.settle k.1 k.2) s = .ok (s1, m1)) (ht : Settles p ctx ks s1 s' m2) :
      Settles p ctx (k :: ks) s s' (m1 ++ m2)

/-- Histories of a contract with one auction at a time: calls about token `k`, sudo messages other than the end-block hook, and
forgetting the oldest halt. -/
inductive Lone (p : Params) (self : Addr) (k : Key) : State → Prop where
  | init {c : Config} {mins : List Coin} {s : State} (h : instantiate p c mins = .ok s) : Lone p self k s
  | call {s s' : State} {ctx : Ctx} {sender : Addr} {funds : List Coin} {m : Exec} {msgs : List Msg} (hl : Lone p self k s)
      (hself : ctx.self = self) (hne : sender ≠ self) (hm : keyOf m = k) (h : execute p ctx sender funds m s = .ok (s', msgs)) :
      Lone p self k s'
  | sudo {s s' : State} {ctx : Ctx} {m : Sudo} {msgs : List Msg} (hl : Lone p self k s) (hself : ctx.self = self)
      (hm : m ≠ .endBlock) (h : sudo p ctx m s = .ok (s', msgs)) : Lone p self k s'
  | forget {s : State} (hl : Lone p self k s) : Lone p self k { s with windows := s.windows.tail }

end Spec

/-! ### Restricted states -/

theorem only_get (k : Key) (s : State) : (only k s).auctions.get? k = s.auctions.get? k :=
  AMap.get?_keep_pos fun _ _ => decide_eq_true rfl

theorem only_put (k : Key) (s : State) (a : Auction) :
    only k { s with auctions := s.auctions.insert k a } = { only k s with auctions := (only k s).auctions.insert k a } := by
  simp only [only]
  rw [AMap.keep_insert _ _ _ _ (by simp)]

theorem only_del (k : Key) (s : State) :
    only k { s with auctions := s.auctions.erase k } = { only k s with auctions := (only k s).auctions.erase k } := by
  simp only [only]
  rw [AMap.keep_erase]

theorem only_settle {k : Key} {s : State} {a : Auction} (ha : a.key = k) (ctx : Ctx) (c : Config) (ws : List HaltWindow) (ms : List Msg) :
    settleAuction p ctx a c ws ms (only k s) = onlyRes k (settleAuction p ctx a c ws ms s) := by
  subst ha
  unfold settleAuction
  split
  · rfl
  · simp only [onlyRes, map_bind]
    refine bind_same fun _ _ => ?_
    split
    · simp only [map_bind]
      refine bind_same fun _ _ => ?_
      simp only [Except.map, only_put]
    · simp only [map_bind]
      refine bind_same fun _ _ => bind_same fun _ _ => bind_same fun _ _ => ?_
      simp only [Except.map, only_del]

/-! ### C123 -/

/-- A call does exactly what it would do if the auction it is about were the only one. -/
theorem C123_alone {s : State} (hr : Reach p me s) {ctx : Ctx} {sender : Addr} {funds : List Coin} {m : Exec} {k : Key}
    (hm : keyOf m = k) : execute p ctx sender funds m (only k s) = onlyRes k (execute p ctx sender funds m s) := by
  have hw := hr.wf
  have hk : ∀ {a : Auction} {c : Err}, orErr (s.auctions.get? k) c = .ok a → a.key = k := by
    intro a c h
    exact (hw.auctions _ _ (orErr_ok.mp h)).key
  cases m with
  | create coll tok r d rec =>
    simp only [execute, onlyRes, map_bind]
    refine bind_same fun x hx => bind_same fun _ _ => ?_
    obtain ⟨_, rfl⟩ := addrValidate_ok.mp hx
    have e : (coll, tok) = k := hm
    simp only [executeCreate, map_bind]
    rw [e, only_get]
    refine bind_same fun _ _ => bind_same fun _ _ => bind_same fun _ _ => bind_same fun _ _ => bind_same fun _ _ =>
      bind_same fun _ _ => bind_same fun _ _ => ?_
    simp only [Except.map, only_put]
  | updateReserve coll tok r =>
    simp only [execute, onlyRes, map_bind]
    refine bind_same fun x hx => ?_
    obtain ⟨_, rfl⟩ := addrValidate_ok.mp hx
    have e : (coll, tok) = k := hm
    simp only [executeUpdateReserve, map_bind]
    rw [e, only_get]
    refine bind_same fun _ _ => bind_same fun a ha => bind_same fun _ _ => bind_same fun _ _ => bind_same fun _ _ => ?_
    simp only [Except.map, hk ha, only_put]
  | cancel coll tok =>
    simp only [execute, onlyRes, map_bind]
    refine bind_same fun x hx => ?_
    obtain ⟨_, rfl⟩ := addrValidate_ok.mp hx
    have e : (coll, tok) = k := hm
    simp only [executeCancel, map_bind]
    rw [e, only_get]
    refine bind_same fun _ _ => bind_same fun a ha => bind_same fun _ _ => bind_same fun _ _ => ?_
    simp only [Except.map, hk ha, only_del]
  | bid coll tok =>
    simp only [execute, onlyRes, map_bind]
    refine bind_same fun x hx => ?_
    obtain ⟨_, rfl⟩ := addrValidate_ok.mp hx
    have e : (coll, tok) = k := hm
    simp only [executeBid, map_bind]
    rw [e, only_get]
    refine bind_same fun a ha => bind_same fun _ _ => bind_same fun _ _ => bind_same fun _ _ => bind_same fun _ _ =>
      bind_same fun _ _ => bind_same fun _ _ => ?_
    simp only [Except.map, hk ha, only_put]
  | settle coll tok =>
    simp only [execute, onlyRes, map_bind]
    refine bind_same fun x hx => ?_
    obtain ⟨_, rfl⟩ := addrValidate_ok.mp hx
    have e : (coll, tok) = k := hm
    simp only [executeSettle, map_bind]
    rw [e, only_get]
    refine bind_same fun _ _ => bind_same fun a ha => ?_
    exact only_settle (hk ha) _ _ _ _

/-- So do governance calls and the begin-block hook. -/
theorem C123_sudo {s : State} {ctx : Ctx} {m : Sudo} (k : Key) (hm : m ≠ .endBlock) :
    sudo p ctx m (only k s) = onlyRes k (sudo p ctx m s) := by
  cases m with
  | endBlock => exact absurd rfl hm
  | beginBlock => simp only [sudo, beginBlock, onlyRes, map_bind]; rfl
  | updateParams u => simp only [sudo, updateParams, onlyRes, map_bind]; rfl
  | setMinReserve cs => simp only [sudo, onlyRes, map_bind]; rfl
  | unsetMinReserve ds => simp only [sudo, onlyRes, map_bind]; rfl

/-- A call leaves everything but its own auction alone. -/
theorem C123_others {s s' : State} (hr : Reach p me s) {ctx : Ctx} {sender : Addr} {funds : List Coin} {m : Exec}
    {msgs : List Msg} {k : Key} (hm : keyOf m ≠ k) (h : execute p ctx sender funds m s = .ok (s', msgs)) : only k s' = only k s := by
  have hw := hr.wf
  have put : ∀ {k' : Key} {a : Auction}, k' ≠ k → only k { s with auctions := s.auctions.insert k' a } = only k s := by
    intro k' a hk
    simp only [only]
    rw [AMap.keep_insert_out _ _ _ _ (by simp [hk]) (by simp [hk])]
  have del : ∀ {k' : Key}, k' ≠ k → only k { s with auctions := s.auctions.erase k' } = only k s := by
    intro k' hk
    simp only [only]
    rw [AMap.keep_erase_out _ _ _ (by simp [hk])]
  have hk : ∀ {c t : Bytes} {a : Auction}, s.auctions.get? (c, t) = some a → (c, t) ≠ k → a.key ≠ k := by
    intro c t a ha hne
    rw [(hw.auctions _ _ ha).key]; exact hne
  cases execute_eff h with
  | create => exact put hm
  | reserve _ _ _ _ _ _ _ ha => exact put (hk ha hm)
  | cancel _ _ _ _ _ ha => exact del (hk ha hm)
  | bid1 _ _ _ _ _ _ _ ha => exact put (hk ha hm)
  | bid2 _ _ _ _ _ _ _ _ _ _ ha => exact put (hk ha hm)
  | settle _ _ a _ _ _ _ ha hs =>
    cases hs with
    | postponed => exact put (hk ha hm)
    | sold => exact del (hk ha hm)

theorem settles_of {ctx : Ctx} : ∀ {as : List Auction} {s s' : State} {ms : List Msg}, WF p me s → Stored s as →
    Batch p ctx s.config s.windows as s s' ms → Settles p ctx (as.map Auction.key) s s' ms
  | [], s, s', ms, _, _, hb => by cases hb; exact .nil _
  | a :: as, s, s', ms, hw, hst, hb => by
    cases hb with
    | @cons _ _ _ s1 _ m1 m2 h1 h2 =>
      have ha := hst.1 a List.mem_cons_self
      have hv := (hw.auctions _ _ ha).valid
      refine .cons (s1 := s1) (fun sender => ?_) (settles_of (h1.wf hw ha) (hst.tail h1) ?_)
      · have := settle_of_eff (ms := []) h1
        rw [List.nil_append] at this
        rw [← this]
        unfold execute executeSettle
        have ha' : s.auctions.get? (a.key.1, a.key.2) = some a := ha
        have hv' : p.valid a.key.1 = true := hv
        simp only [addrValidate, hv', if_true, ok_bind, nonpayable, ensure, ha', orErr]
      · rw [h1.frame.1, h1.frame.2.2.2.1]; exact h2

/-- The end-block hook does what settle calls for different tokens would do, with the same messages, and may forget the oldest
halt; nothing else. -/
theorem C123_hook {s s' : State} (hr : Reach p me s) {ctx : Ctx} {msgs : List Msg} (h : sudo p ctx .endBlock s = .ok (s', msgs)) :
    ∃ ks s1, ks.Nodup ∧ Settles p ctx ks s s1 msgs ∧ s' = { s1 with windows := s'.windows } ∧
      (s'.windows = s1.windows ∨ s'.windows = s1.windows.tail) := by
  have hw := hr.wf
  cases sudo_eff h with
  | stop earliest s1 _ _ _ hb =>
    refine ⟨(dueAuctions ctx s).map Auction.key, s1, (due_stored hw).2, settles_of hw (due_stored hw) hb, rfl, ?_⟩
    rw [hb.frame.2.2.2.1]
    show dropStale s.windows earliest = _ ∨ dropStale s.windows earliest = _
    cases s.windows with
    | nil => exact .inl rfl
    | cons w rest =>
      cases earliest with
      | none => exact .inr rfl
      | some t =>
        simp only [dropStale]
        split
        · exact .inr rfl
        · exact .inl rfl

theorem settles_lone {ctx : Ctx} (hself : ctx.self = me) {k : Key} {ks : List Key} {s s' : State} {ms : List Msg}
    (h : Settles p ctx ks s s' ms) : Reach p me s → Lone p me k (only k s) → Lone p me k (only k s') := by
  induction h with
  | nil => exact fun _ h => h
  | @cons k' ks s s1 s' m1 m2 h _ ih =>
    intro hr hl
    have hne : (0 :: me : Addr) ≠ me := fun e => absurd (congrArg List.length e) (by simp)
    refine ih (hr.step (.call hself hne (h _))) ?_
    by_cases hk : k' = k
    · subst hk
      refine .call (m := .settle k'.1 k'.2) (sender := 0 :: me) (funds := []) hl hself hne rfl (msgs := m1) ?_
      rw [C123_alone (m := .settle k'.1 k'.2) (k := k') hr rfl, h]; rfl
    · rw [C123_others hr (m := .settle k'.1 k'.2) hk (h me)]; exact hl

/-- The auctions of a token evolve as in a contract that never has another auction. -/
theorem C123_history {s : State} (hr : Reach p me s) (k : Key) : Lone p me k (only k s) := by
  obtain ⟨c, mins, s0, hi, ha⟩ := hr
  have hr0 : Reach p me s0 := ⟨c, mins, s0, hi, .refl _⟩
  induction ha with
  | refl =>
    have : only k s0 = s0 := by
      unfold instantiate at hi
      simp only [bind_ok] at hi
      obtain ⟨_, _, _, _, _, _, h⟩ := hi
      cases h; rfl
    rw [this]; exact .init hi
  | @step b c' h hs ih =>
    have hb : Reach p me b := ⟨c, mins, s0, hi, h⟩
    cases hs with
    | @call ctx sender funds m msgs hself hne hx =>
      by_cases hk : keyOf m = k
      · refine .call ih hself hne hk (ctx := ctx) (funds := funds) (msgs := msgs) ?_
        rw [C123_alone hb hk, hx]; rfl
      · rw [C123_others hb hk hx]; exact ih
    | @sudo ctx m msgs hself hx =>
      by_cases hm : m = .endBlock
      · subst hm
        obtain ⟨ks, s1, _, hset, e, hwin⟩ := C123_hook hb hx
        have hl := settles_lone hself (k := k) hset hb ih
        rw [e]
        rcases hwin with hwin | hwin
        · rw [hwin]; exact hl
        · rw [hwin]; exact .forget hl
      · refine .sudo ih hself hm (ctx := ctx) (msgs := msgs) ?_
        rw [C123_sudo k hm, hx]; rfl

namespace Sample

/-- In `t4` three auctions are open; the hook at 1061 s settles two of them. -/
example : sok (ctx 1061000) .endBlock t4 = true ∧ t4.auctions.l.length = 3 ∧ (only (coll, [50]) t4).auctions.l.length = 1 ∧
    (srun (ctx 1061000) .endBlock t4).1.auctions.l.length = 1 := by
  refine ⟨by decide +kernel, by decide +kernel, by decide +kernel, by decide +kernel⟩

example : ∃ ks s1, ks.Nodup ∧ Settles P (ctx 1061000) ks t4 s1 (srun (ctx 1061000) .endBlock t4).2 ∧
    (srun (ctx 1061000) .endBlock t4).1 = { s1 with windows := (srun (ctx 1061000) .endBlock t4).1.windows } ∧
    ((srun (ctx 1061000) .endBlock t4).1.windows = s1.windows ∨ (srun (ctx 1061000) .endBlock t4).1.windows = s1.windows.tail) :=
  C123_hook rt4 (srun_eq (by decide +kernel))

example : execute P (ctx 1010000) carol [⟨ust, 120⟩] (.bid coll [50]) (only (coll, [50]) t4) =
    onlyRes (coll, [50]) (execute P (ctx 1010000) carol [⟨ust, 120⟩] (.bid coll [50]) t4) := C123_alone rt4 rfl
example : ok (ctx 1010000) carol [⟨ust, 120⟩] (.bid coll [50]) t4 = true := by decide +kernel

end Sample
end Verif.Auction

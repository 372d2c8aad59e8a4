/-
Property C115: what the events of the reserve auction tell of halts and of the fate of auctions that are due.
-/
import Verif.Auction.PropsEvents

namespace Verif.Auction
open Verif Spec

section
variable {p : Params}

/-! ### Events of a settlement -/

/-- The event tells the fate of the auction: postponed if its end lies in a halt, else settled. -/
def Fate (ctx : Ctx) (c : Config) (ws : List HaltWindow) (a : Auction) (ev : Event) : Prop :=
  ∃ t, a.endTime = some t ∧ t ≤ ctx.time ∧ tokenOf ev = some a.key ∧
    ((ev.ty = "postpone-auction" ∧ Halted ws (sec t) ∧
        time ev "auction_end_time" = some (ctx.time + c.haltPostpone * 1000000000)) ∨
     (ev.ty = "settle-auction" ∧ ¬ Halted ws (sec t)))

theorem inHalt_iff {ws : List HaltWindow} {t : Nat} : inHalt ws t = true ↔ Halted ws t := by
  unfold inHalt Halted
  simp only [List.any_eq_true, decide_eq_true_eq]

theorem postpone_time (a : Auction) (e : Nat) : time (postponeEvent a e) "auction_end_time" = some e := by
  simp [postponeEvent, time, Event.get_mk, readTime_showTime]

theorem settleE_fate {ctx : Ctx} {a : Auction} {c : Config} {ws : List HaltWindow} {ms msgs : List Msg}
    {es evs : List Event} {s s' : State} (h : settleAuctionE p ctx a c ws ms es s = .ok (s', msgs, evs)) :
    ∃ ev, evs = es ++ [ev] ∧ Fate ctx c ws a ev ∧ s'.windows = s.windows := by
  have hN : NS = 1000000000 := rfl
  have hsec : ∀ t, secs t = sec t := fun _ => rfl
  unfold settleAuctionE at h
  simp only [hsec] at h
  split at h
  · cases h
  case h_2 t ht =>
    simp only [bind_ok, ensure_ok] at h
    obtain ⟨_, hle, h⟩ := h
    split at h
    case isTrue hi =>
      simp only [bind_ok, plusSeconds_ok] at h
      obtain ⟨_, ⟨_, rfl⟩, h⟩ := h
      cases h
      refine ⟨_, rfl, ⟨t, ht, hle, ?_, .inl ⟨rfl, inHalt_iff.mp hi, ?_⟩⟩, rfl⟩
      · simp [postponeEvent, tokenOf, Event.get_mk, Auction.key]
      · rw [← hN]
        exact postpone_time a _
    case isFalse hi =>
      simp only [bind_ok, orErr_ok] at h
      obtain ⟨hb, _, _, _, pay, _, h⟩ := h
      cases h
      refine ⟨_, rfl, ⟨t, ht, hle, ?_, .inr ⟨rfl, fun hh => hi (inHalt_iff.mpr hh)⟩⟩, rfl⟩
      simp [settleEvent, tokenOf, Event.get_mk, Auction.key]

/-- Auctions and the events that tell their fates, in order. -/
inductive Fates (ctx : Ctx) (c : Config) (ws : List HaltWindow) : List Auction → List Event → Prop where
  | nil : Fates ctx c ws [] []
  | cons {a : Auction} {as : List Auction} {e : Event} {es : List Event} (h : Fate ctx c ws a e)
      (ht : Fates ctx c ws as es) : Fates ctx c ws (a :: as) (e :: es)

theorem batchE_fates {ctx : Ctx} {c : Config} {ws : List HaltWindow} : ∀ {as : List Auction} {ms : List Msg}
    {es : List Event} {s s' : State} {msgs : List Msg} {evs : List Event},
    settleAllE p ctx c ws as ms es s = .ok (s', msgs, evs) →
    ∃ nev, evs = es ++ nev ∧ Fates ctx c ws as nev
  | [], ms, es, s, s', msgs, evs, h => by
    cases h; exact ⟨[], by simp, .nil⟩
  | a :: as, ms, es, s, s', msgs, evs, h => by
    unfold settleAllE at h
    rw [bind_ok] at h
    obtain ⟨⟨s1, m1, ev1⟩, h1, h⟩ := h
    obtain ⟨v1, rfl, e1, _⟩ := settleE_fate h1
    obtain ⟨v2, rfl, e2⟩ := batchE_fates h
    exact ⟨v1 :: v2, by simp, .cons e1 e2⟩

theorem Fates.mem {ctx : Ctx} {c : Config} {ws : List HaltWindow} {as : List Auction} {es : List Event}
    (h : Fates ctx c ws as es) : ∀ e ∈ es, ∃ a ∈ as, Fate ctx c ws a e := by
  induction h with
  | nil => intro e he; cases he
  | cons h _ ih =>
    intro e he
    rcases List.mem_cons.mp he with rfl | he
    · exact ⟨_, List.mem_cons_self, h⟩
    · obtain ⟨a, ha, hf⟩ := ih e he
      exact ⟨a, List.mem_cons_of_mem _ ha, hf⟩

/-- The end-block hook. -/
theorem endE_fates {ctx : Ctx} {s s' : State} {msgs : List Msg} {evs : List Event}
    (h : endBlockE p ctx s = .ok (s', msgs, evs)) :
    ∃ nev earliest, evs = endBlockEvent :: nev ∧ Fates ctx s.config s.windows (dueAuctions ctx s) nev ∧
      s'.windows = dropStale s.windows earliest ∧
      (∀ a, (dueAuctions ctx s).head? = some a → a.endTime = earliest) ∧
      ((dueAuctions ctx s).head? = none → earliest = none) := by
  simp only [endBlockE, bind_ok] at h
  obtain ⟨earliest, he, ⟨s1, m1, v1⟩, hb, h⟩ := h
  cases h
  obtain ⟨nev, e1, hf⟩ := batchE_fates hb
  refine ⟨nev, earliest, e1, hf, rfl, ?_, ?_⟩
  · intro a ha
    rw [ha] at he
    simp only [bind_ok, orErr_ok] at he
    obtain ⟨t, h1, h2⟩ := he
    cases h2
    exact h1
  · intro hn
    rw [hn] at he
    cases he
    rfl

theorem forget_eq (ws : List HaltWindow) (t : Option Nat) : dropStale ws t = forget ws t := by
  unfold dropStale forget
  cases ws with
  | nil => rfl
  | cons w rest =>
    cases t with
    | none => rfl
    | some t =>
      have hs : secs t = sec t := rfl
      simp only [hs]
      by_cases hc : sec t ≤ w.stop
      · rw [if_pos hc, if_neg (Nat.not_lt.mpr hc)]
      · rw [if_neg hc, if_pos (Nat.lt_of_not_le hc)]

/-! ### One response -/

theorem Spec.Heard.logged {name version : Bytes} {self : Addr} {G : State → Prop} {s : State} {log : List (List Event)}
    (h : Heard p name version self G s log) : Logged p name version self G s log.flatten := by
  induction h with
  | init h => rw [List.flatten_cons, List.flatten_nil, List.append_nil]; exact .init h
  | call _ hg h1 h2 h ih =>
    rw [List.flatten_append, List.flatten_cons, List.flatten_nil, List.append_nil]
    exact .call ih hg h1 h2 h
  | sudo _ hg h1 h ih =>
    rw [List.flatten_append, List.flatten_cons, List.flatten_nil, List.append_nil]
    exact .sudo ih hg h1 h

theorem follow_append (w : Watch) : ∀ (l r : List (List Event)), w.follow (l ++ r) = (w.follow l).bind fun w' => w'.follow r
  | [], _ => rfl
  | e :: l, r => by
    simp only [List.cons_append, Watch.follow]
    cases w.hear e with
    | none => rfl
    | some w' => exact follow_append w' l r

theorem follow_one (w : Watch) (r : List Event) : w.follow [r] = w.hear r := by
  simp only [Watch.follow]
  cases w.hear r <;> rfl

/-- A response without `sudo-end-block` at the start and without `halt-detected`. -/
theorem hear_plain {w : Watch} {b' : Book} {r : List Event} (h : w.book.replay r = some b')
    (hno : ∀ e ∈ r, e.ty ≠ "sudo-end-block" ∧ e.ty ≠ "halt-detected") : w.hear r = some ⟨b', w.windows⟩ := by
  unfold Watch.hear
  rw [h]
  cases r with
  | nil => rfl
  | cons e r =>
    have h1 := (hno e List.mem_cons_self).1
    have h2 : (e :: r).any (fun f => decide (f.ty = "halt-detected")) = false := by
      rw [List.any_eq_false]
      intro f hf
      simp [(hno f hf).2]
    simp only [Option.bind_some, h1, if_false, h2]
    simp

theorem call_plain {ctx : Ctx} {sender : Addr} {funds : List Coin} {m : Exec} {s s' : State} {msgs : List Msg} {ev : Event}
    (h : EvEff p ctx sender funds s m s' msgs ev) :
    (ev.ty ≠ "sudo-end-block" ∧ ev.ty ≠ "halt-detected") ∧ s'.windows = s.windows := by
  cases h with
  | settle coll tok a _ _ _ ha h => cases h <;> simp [postponeEvent, settleEvent]
  | _ => simp [createEvent, reserveEvent, cancelEvent, bidEvent]

theorem watch_step {name version : Bytes} {self : Addr} {s s' : State} {log : List (List Event)} {evs : List Event}
    {w : Watch} {b' : Book} (hr : Heard p name version self PlainDenoms s log) (hk : Knows w.book s)
    (hw : w.windows = s.windows) (hb : w.book.replay evs = some b')
    (h : (∃ ctx sender funds m msgs, executeE p ctx sender funds m s = .ok (s', msgs, evs)) ∨
      ∃ ctx m msgs, sudoE p ctx m s = .ok (s', msgs, evs)) :
    w.hear evs = some ⟨b', s'.windows⟩ := by
  rcases h with ⟨ctx, sender, funds, m, msgs, h⟩ | ⟨ctx, m, msgs, h⟩
  · obtain ⟨ev, rfl, he⟩ := executeE_eff h
    obtain ⟨h1, h2⟩ := call_plain he
    rw [hear_plain hb (fun e he => by rw [List.mem_singleton] at he; subst he; exact h1), h2, hw]
  · cases m with
    | beginBlock =>
      simp only [sudoE, beginBlockE, bind_ok, subChk_ok] at h
      obtain ⟨_, ⟨hle, rfl⟩, ws, hws, h⟩ := h
      cases h
      split at hws
      · rw [bind_ok] at hws
        obtain ⟨stop, hs, hws⟩ := hws
        cases hws
        unfold Watch.hear
        rw [hb]
        simp [haltEvents, num, Event.get_mk, readNat_showNat, hw]
      · cases hws
        unfold Watch.hear
        rw [hb, hw]
        rfl
    | endBlock =>
      obtain ⟨nev, earliest, rfl, hf, h3, h4, h5⟩ := endE_fates h
      unfold Watch.hear
      rw [hb]
      have hst := due_stored (ctx := ctx) hr.logged.reach.wf
      rw [h3, forget_eq]
      generalize hd : dueAuctions ctx s = as at hf h4 h5 hst
      cases hf with
      | nil =>
        rw [h5 rfl]
        simp [endBlockEvent, hw]
      | @cons a as e es hfa ht =>
        obtain ⟨t, h6, _, h7, _⟩ := hfa
        have h8 := h4 a rfl
        have h9 : w.book.auctions a.key = some (view a) := by
          rw [hk.auctions, hst.1 a List.mem_cons_self]; rfl
        have h10 : (view a).endTime = some t := h6
        rw [← h8, h6]
        simp [endBlockEvent, h7, h9, h10, hw]
    | updateParams u =>
      cases sudoE_eff h with
      | params => rw [hear_plain hb (by simp [paramsEvent]), hw]
    | setMinReserve cs =>
      cases sudoE_eff h with
      | setMin _ m hm => rw [hear_plain hb (by simp [setMinEvent]), hw]
    | unsetMinReserve ds =>
      cases sudoE_eff h with
      | unsetMin _ m hm => rw [hear_plain hb (by simp [unsetMinEvent]), hw]

/-- **C115** (1) Someone who reads the responses one after the other knows, besides everything of C109, the halts of the
chain that the contract remembers. -/
theorem C115_watch {name version : Bytes} {self : Addr} {s : State} {log : List (List Event)}
    (h : Heard p name version self PlainDenoms s log) (hs : PlainDenoms s) :
    ∃ w, Watch.start.follow log = some w ∧ Knows w.book s ∧ w.windows = s.windows := by
  induction h with
  | init h =>
    obtain ⟨b, hb, hk⟩ := C109_replay (self := self) (.init h) hs
    rename_i c mins s evs
    unfold instantiateE instantiate at h
    simp only [bind_ok] at h
    obtain ⟨s0, ⟨_, _, _, _, m, hm, h0⟩, h⟩ := h
    cases h0
    cases h
    refine ⟨⟨b, []⟩, ?_, hk, rfl⟩
    rw [follow_one]
    refine hear_plain (w := Watch.start) hb ?_
    intro e he
    rcases List.mem_cons.mp he with rfl | he
    · simp [initEvent]
    · obtain ⟨x, _, rfl⟩ := List.mem_map.mp he
      simp [setMinEvent]
  | call hr hg h1 h2 h ih =>
    obtain ⟨w, e, hk, hw⟩ := ih hg
    have hp := (logged_know hr.logged hg).2
    obtain ⟨ev, rfl, he⟩ := executeE_eff h
    obtain ⟨⟨b', hb, hk'⟩, _⟩ := see_call hk hr.logged.reach.wf hg hp he
    refine ⟨⟨b', _⟩, ?_, hk', rfl⟩
    rw [follow_append, e, Option.bind_some, follow_one]
    exact watch_step hr hk hw (by rw [replay_one]; exact hb) (.inl ⟨_, _, _, _, _, h⟩)
  | sudo hr hg h1 h ih =>
    obtain ⟨w, e, hk, hw⟩ := ih hg
    have hp := (logged_know hr.logged hg).2
    obtain ⟨⟨b', hb, hk'⟩, _⟩ := see_hook hk hr.logged.reach.wf hs hp (sudoE_eff h)
    refine ⟨⟨b', _⟩, ?_, hk', rfl⟩
    rw [follow_append, e, Option.bind_some, follow_one]
    exact watch_step hr hk hw hb (.inr ⟨_, _, _, h⟩)

/-- **C115** (2) The fate of an auction can be told from what was known before: an auction is postponed, by the known
time, if its known end lies strictly inside a known halt, and else settled; never before its end. -/
theorem C115_fate {self : Addr} {s s' : State} {w : Watch} {ctx : Ctx} {msgs : List Msg} {evs : List Event} {e : Event}
    (hr : Reach p self s) (hk : Knows w.book s) (hw : w.windows = s.windows)
    (h : sudoE p ctx .endBlock s = .ok (s', msgs, evs) ∨
      ∃ sender funds coll tok, executeE p ctx sender funds (.settle coll tok) s = .ok (s', msgs, evs))
    (he : e ∈ evs) (hne : e.ty ≠ "sudo-end-block") :
    ∃ k v t c, tokenOf e = some k ∧ w.book.auctions k = some v ∧ v.endTime = some t ∧ t ≤ ctx.time ∧
      w.book.config = some c ∧
      ((e.ty = "postpone-auction" ∧ Halted w.windows (sec t) ∧
          time e "auction_end_time" = some (ctx.time + c.haltPostpone * 1000000000)) ∨
       (e.ty = "settle-auction" ∧ ¬ Halted w.windows (sec t))) := by
  have key : ∀ a, s.auctions.get? a.key = some a → Fate ctx s.config s.windows a e →
      ∃ k v t c, tokenOf e = some k ∧ w.book.auctions k = some v ∧ v.endTime = some t ∧ t ≤ ctx.time ∧
      w.book.config = some c ∧
      ((e.ty = "postpone-auction" ∧ Halted w.windows (sec t) ∧
          time e "auction_end_time" = some (ctx.time + c.haltPostpone * 1000000000)) ∨
       (e.ty = "settle-auction" ∧ ¬ Halted w.windows (sec t))) := by
    intro a ha hf
    obtain ⟨t, h1, h2, h3, h4⟩ := hf
    rw [← hw] at h4
    exact ⟨a.key, view a, t, { s.config with maxDuration := 0 }, h3, by rw [hk.auctions, ha]; rfl, h1, h2, hk.config, h4⟩
  rcases h with h | ⟨sender, funds, coll, tok, h⟩
  · obtain ⟨nev, earliest, rfl, hf, _⟩ := endE_fates h
    rcases List.mem_cons.mp he with rfl | he
    · exact absurd rfl hne
    · obtain ⟨a, ha, hf⟩ := hf.mem e he
      exact key a ((due_stored (ctx := ctx) hr.wf).1 a ha) hf
  · simp only [executeE, bind_ok, addrValidate_ok, executeSettleE, nonpayable_ok, orErr_ok] at h
    obtain ⟨_, ⟨hv, rfl⟩, _, hf, a, ha, h⟩ := h
    obtain ⟨ev, e2, hf, _⟩ := settleE_fate h
    rw [List.nil_append] at e2
    subst e2
    rw [List.mem_singleton] at he
    subst he
    refine key a ?_ hf
    rw [(hr.wf.auctions _ _ ha).key]; exact ha

/-- **C115** (3) A block announces a halt exactly if the time since the last block has reached the known threshold, and
names as its start the last block, as its end this block plus the known buffer. -/
theorem C115_halt {ctx : Ctx} {s s' : State} {msgs : List Msg} {evs : List Event}
    (h : sudoE p ctx .beginBlock s = .ok (s', msgs, evs)) :
    (0 < s.prevBlock ∧ s.prevBlock + s.config.haltThreshold ≤ sec ctx.time ∧
      ∃ e f, evs = [e, f] ∧ f.ty = "halt-detected" ∧ num e "start_time" = some s.prevBlock ∧
        num e "end_time" = some (sec ctx.time + s.config.haltBuffer)) ∨
    (¬ (0 < s.prevBlock ∧ s.prevBlock + s.config.haltThreshold ≤ sec ctx.time) ∧ evs = []) := by
  simp only [sudoE, beginBlockE, bind_ok, subChk_ok] at h
  obtain ⟨_, ⟨hle, rfl⟩, ws, hws, h⟩ := h
  cases h
  have hsec : secs ctx.time = sec ctx.time := rfl
  rw [hsec] at hws hle
  split at hws
  case isTrue hc =>
    simp only [bind_ok, u64_ok] at hws
    obtain ⟨stop, ⟨_, rfl⟩, hws⟩ := hws
    cases hws
    refine .inl ⟨hc.1, by omega, _, _, rfl, rfl, ?_, ?_⟩
    · simp [num, Event.get_mk, readNat_showNat]
    · simp [num, Event.get_mk, readNat_showNat]
  case isFalse hc =>
    cases hws
    refine .inr ⟨fun hh => hc ⟨hh.1, ?_⟩, rfl⟩
    omega

end

namespace Sample

/-- As `play`, keeping the responses apart. -/
def attend : List (Ctx × Act) → State × List (List Event) → Option (State × List (List Event))
  | [], x => if plainOk x.1 then some x else none
  | (c, a) :: cs, (s, log) =>
    if c.self = self ∧ plainOk s = true then
      match act c a s with
      | .ok (s', _, evs) => attend cs (s', log ++ [evs])
      | .error _ => none
    else none

theorem attend_heard : ∀ {cs : List (Ctx × Act)} {x y : State × List (List Event)},
    Heard P [97] [49] self PlainDenoms x.1 x.2 → attend cs x = some y →
    Heard P [97] [49] self PlainDenoms y.1 y.2 ∧ PlainDenoms y.1
  | [], x, y, h, hp => by
    unfold attend at hp
    split at hp
    case isTrue hc => cases hp; exact ⟨h, plainOk_spec hc⟩
    case isFalse => cases hp
  | (c, a) :: cs, (s, log), y, h, hp => by
    unfold attend at hp
    split at hp
    case isFalse => cases hp
    case isTrue hc =>
      split at hp
      case h_2 => cases hp
      case h_1 s' ms evs he =>
        refine attend_heard ?_ hp
        cases a with
        | call sender funds m =>
          simp only [act] at he
          split at he
          · cases he
          case isFalse hne => exact .call h (plainOk_spec hc.2) hc.1 hne he
        | hook m => exact .sudo h (plainOk_spec hc.2) hc.1 he

def attended (cs : List (Ctx × Act)) : State × List (List Event) := (attend cs (s0, [log0])).getD (s0, [log0])

theorem attended_heard {cs : List (Ctx × Act)} (h : (attend cs (s0, [log0])).isSome = true) :
    Heard P [97] [49] self PlainDenoms (attended cs).1 (attended cs).2 ∧ PlainDenoms (attended cs).1 := by
  obtain ⟨y, hy⟩ := Option.isSome_iff_exists.mp h
  have := attend_heard (x := (s0, [log0])) (.init (c := cfg) (mins := [⟨ust, 10⟩]) rfl) hy
  unfold attended
  rw [hy]
  exact this

/-- The script of C109: an observer knows the halt before it is forgotten and afterwards that it is. -/
example : ∃ w, Watch.start.follow (attended script).2 = some w ∧ Knows w.book (attended script).1 ∧
    w.windows = (attended script).1.windows :=
  C115_watch (attended_heard (by decide +kernel)).1 (attended_heard (by decide +kernel)).2
example : [7, 8, 10, 11].map (fun n => (Watch.start.follow (attended (script.take n)).2).map fun w =>
    w.windows.map fun x => (x.start, x.stop)) = [some [], some [(1000, 1250)], some [(1000, 1250)], some []] := by
  decide +kernel

/-- The block at second 1200 postpones the auction that ended at 1060, inside the halt; the one at 1290 settles it. -/
def postOut : OutE := sudoE P (ctx 1200000) .endBlock (attended (script.take 8)).1
def lateOut : OutE := sudoE P (ctx 1290000) .endBlock (attended (script.take 10)).1

example (e : Event) (he : e ∈ (outOf postOut).2.2) (hne : e.ty ≠ "sudo-end-block") :
    ∃ w, Watch.start.follow (attended (script.take 8)).2 = some w ∧
    ∃ k v t c, tokenOf e = some k ∧ w.book.auctions k = some v ∧ v.endTime = some t ∧ t ≤ (ctx 1200000).time ∧
      w.book.config = some c ∧
      ((e.ty = "postpone-auction" ∧ Halted w.windows (sec t) ∧
          time e "auction_end_time" = some ((ctx 1200000).time + c.haltPostpone * 1000000000)) ∨
       (e.ty = "settle-auction" ∧ ¬ Halted w.windows (sec t))) := by
  have hh := attended_heard (cs := script.take 8) (by decide +kernel)
  obtain ⟨w, h1, h2, h3⟩ := C115_watch hh.1 hh.2
  exact ⟨w, h1, C115_fate hh.1.logged.reach h2 h3 (.inl (outOf_ok (x := postOut) (by decide +kernel))) he hne⟩
example : (outOf postOut).2.2.map (fun e => (e.ty, time e "auction_end_time")) =
    [("sudo-end-block", none), ("postpone-auction", some 1260000000000)] := by decide +kernel
example : (outOf lateOut).2.2.map (fun e => e.ty) = ["sudo-end-block", "settle-auction"] := by decide +kernel

/-- The halt of the script: the last block was at second 1000, the next at 1200. -/
def haltOut : OutE := sudoE P (ctx 1200000) .beginBlock (attended (script.take 7)).1
example : 0 < (attended (script.take 7)).1.prevBlock ∧
    (attended (script.take 7)).1.prevBlock + (attended (script.take 7)).1.config.haltThreshold ≤ sec (ctx 1200000).time ∧
    ∃ e f, (outOf haltOut).2.2 = [e, f] ∧ f.ty = "halt-detected" ∧
      num e "start_time" = some (attended (script.take 7)).1.prevBlock ∧
      num e "end_time" = some (sec (ctx 1200000).time + (attended (script.take 7)).1.config.haltBuffer) := by
  rcases C115_halt (outOf_ok (x := haltOut) (by decide +kernel)) with h | h
  · exact h
  · exact absurd (by decide +kernel) h.1

end Sample
end Verif.Auction

/-
Reserve auction: when an auction ends (C134).
-/
import Verif.Auction.PropsSigned
import Verif.Auction.EventSpec

namespace Verif.Auction
open Verif Spec

section
variable {p : Params} {me : Addr}

/-! ### Specification -/

/-- The calls and hooks of a history with the block times, latest first. -/
inductive Spec.Clocked (p : Params) (self : Addr) (s0 : State) : List (Nat × Act) → State → Prop where
  | nil : Clocked p self s0 [] s0
  | call {l : List (Nat × Act)} {s s' : State} {ctx : Ctx} {sender : Addr} {funds : List Coin} {m : Exec} {msgs : List Msg}
      (hd : Clocked p self s0 l s) (hself : ctx.self = self) (hne : sender ≠ self)
      (h : execute p ctx sender funds m s = .ok (s', msgs)) :
      Clocked p self s0 ((ctx.time, ⟨s, .call sender funds m, s', msgs⟩) :: l) s'
  | sudo {l : List (Nat × Act)} {s s' : State} {ctx : Ctx} {m : Sudo} {msgs : List Msg}
      (hd : Clocked p self s0 l s) (hself : ctx.self = self) (h : Auction.sudo p ctx m s = .ok (s', msgs)) :
      Clocked p self s0 ((ctx.time, ⟨s, .sudo m, s', msgs⟩) :: l) s'

/-- The times of the bids on token `k`, latest first. -/
def Spec.offerTimes (k : Key) (l : List (Nat × Act)) : List Nat := l.filterMap (fun z => (offerBy k z.2.deed).map (fun _ => z.1))

/-- `x` opened the auction of token `k`, which stayed open through `l`. -/
def Spec.Opened (k : Key) (l : List (Nat × Act)) (x : Nat × Act) : Prop :=
  x.2.before.auctions.get? k = none ∧ x.2.after.auctions.get? k ≠ none ∧
    ∀ z ∈ l, z.2.before.auctions.get? k ≠ none ∧ z.2.after.auctions.get? k ≠ none

/-- A bid on token `k` after the first. -/
def Spec.Outbids (k : Key) (z : Nat × Act) : Prop :=
  offerBy k z.2.deed ≠ none ∧ ∃ v, z.2.before.auctions.get? k = some v ∧ v.highBid ≠ none

/-- An attempt to settle an auction that ended during a halt of the chain. -/
def Spec.Postpones (k : Key) (z : Nat × Act) : Prop :=
  (z.2.deed = .sudo .endBlock ∨ ∃ who, z.2.deed = .call who [] (.settle k.1 k.2)) ∧
    ∃ v e, z.2.before.auctions.get? k = some v ∧ v.endTime = some e ∧ e ≤ z.1 ∧ Halted z.2.before.windows (sec e)

/-- The end of auction `a` of token `k`, after `l` has happened since it was opened. -/
structure Spec.Clock (k : Key) (a : Auction) (l : List (Nat × Act)) : Prop where
  /-- the first bid starts the clock -/
  first : a.firstBid = (offerTimes k l).getLast?
  started : a.endTime ≠ none ↔ offerTimes k l ≠ []
  /-- the auction runs at least for its duration -/
  runs : ∀ f e, a.firstBid = some f → a.endTime = some e → f + a.duration * 1000000000 ≤ e
  /-- after every other bid, there is at least the time that was then configured to answer it -/
  reply : ∀ e, a.endTime = some e → ∀ z ∈ l, Outbids k z → sec z.1 + z.2.before.config.extendDuration ≤ sec e
  /-- and the end is no later than one of these reasons makes it -/
  cause : ∀ e, a.endTime = some e → (∃ f, a.firstBid = some f ∧ e = f + a.duration * 1000000000) ∨
    (∃ z ∈ l, Outbids k z ∧ e = z.1 + z.2.before.config.extendDuration * 1000000000) ∨
    (∃ z ∈ l, Postpones k z ∧ e = z.1 + z.2.before.config.haltPostpone * 1000000000)

/-! ### Lemmas -/

theorem Spec.Clocked.diary {s0 s : State} {l : List (Nat × Act)} (h : Clocked p me s0 l s) : Diary p me s0 (l.map Prod.snd) s := by
  induction h with
  | nil => exact .nil
  | call hd hself hne h ih => exact .call ih hself hne h
  | sudo hd hself h ih => exact .sudo ih hself h

theorem Spec.Clocked.reach {c : Config} {mins : List Coin} {s0 s : State} {l : List (Nat × Act)} (hi : instantiate p c mins = .ok s0)
    (h : Clocked p me s0 l s) : Reach p me s := diary_reach hi h.diary

/-- What a step does to the clock of an auction that stays open. -/
inductive Turn (k : Key) (z : Nat × Act) (a b : Auction) : Prop where
  | same (hb : offerBy k z.2.deed = none) (hf : b.firstBid = a.firstBid) (he : b.endTime = a.endTime)
  | first (hb : offerBy k z.2.deed ≠ none) (hh : ∀ v, z.2.before.auctions.get? k = some v → v.highBid = none)
      (hn : a.endTime = none) (hf : b.firstBid = some z.1)
      (he : b.endTime = some (z.1 + b.duration * 1000000000))
  | later (e e' : Nat) (hb : Outbids k z) (hn : a.endTime = some e) (hf : b.firstBid = a.firstBid) (he : b.endTime = some e')
      (hle : e ≤ e') (hr : sec z.1 + z.2.before.config.extendDuration ≤ sec e')
      (hc : e' = e ∨ e' = z.1 + z.2.before.config.extendDuration * 1000000000)
  | postponed (e e' : Nat) (hb : offerBy k z.2.deed = none) (hp : Postpones k z) (hn : a.endTime = some e) (hf : b.firstBid = a.firstBid)
      (he : b.endTime = some e') (hle : e ≤ e') (hc : e' = z.1 + z.2.before.config.haltPostpone * 1000000000)

theorem Spec.Clock.turn {k : Key} {a b : Auction} {l : List (Nat × Act)} {z : Nat × Act} (h : Clock k a l) (hd : b.duration = a.duration)
    (t : Turn k z a b) : Clock k b (z :: l) := by
  have hB0 : offerBy k z.2.deed = none → offerTimes k (z :: l) = offerTimes k l := by intro h; simp [offerTimes, h]
  have hB1 : offerBy k z.2.deed ≠ none → offerTimes k (z :: l) = z.1 :: offerTimes k l := by
    intro h
    obtain ⟨o, ho⟩ := Option.ne_none_iff_exists'.mp h
    simp [offerTimes, ho]
  have notOut : offerBy k z.2.deed = none → ¬ Outbids k z := fun h h' => h'.1 h
  have old : ∀ {e : Nat}, (a.firstBid = b.firstBid) → a.endTime = some e →
      (∃ f, b.firstBid = some f ∧ e = f + b.duration * 1000000000) ∨
      (∃ y ∈ z :: l, Outbids k y ∧ e = y.1 + y.2.before.config.extendDuration * 1000000000) ∨
      (∃ y ∈ z :: l, Postpones k y ∧ e = y.1 + y.2.before.config.haltPostpone * 1000000000) := by
    intro e hf he
    rcases h.cause e he with ⟨f, h1, h2⟩ | ⟨y, h1, h2⟩ | ⟨y, h1, h2⟩
    · exact .inl ⟨f, by rw [← hf, h1], by rw [hd]; exact h2⟩
    · exact .inr (.inl ⟨y, List.mem_cons_of_mem _ h1, h2⟩)
    · exact .inr (.inr ⟨y, List.mem_cons_of_mem _ h1, h2⟩)
  have mono : ∀ {x y : Nat}, x ≤ y → sec x ≤ sec y := fun h => Nat.div_le_div_right h
  cases t with
  | same hb hf he =>
    refine ⟨by rw [hf, hB0 hb]; exact h.first, by rw [he, hB0 hb]; exact h.started, ?_, ?_, ?_⟩
    · rw [hf, he, hd]; exact h.runs
    · intro e h1 y hy ho
      rcases List.mem_cons.mp hy with rfl | hy
      · exact absurd ho (notOut hb)
      · exact h.reply e (he ▸ h1) y hy ho
    · intro e h1; exact old hf.symm (he ▸ h1)
  | first hb hh hn hf he =>
    have hnil : offerTimes k l = [] := by
      apply Classical.byContradiction; intro hne; exact h.started.mpr hne hn
    refine ⟨?_, ?_, ?_, ?_, ?_⟩
    · rw [hf, hB1 hb, hnil]; rfl
    · rw [he, hB1 hb]; simp
    · intro f e h1 h2
      rw [hf] at h1; rw [he] at h2
      cases h1; cases h2; exact Nat.le_refl _
    · intro e h1 y hy ho
      exfalso
      rcases List.mem_cons.mp hy with rfl | hy
      · obtain ⟨_, v, hv, hne⟩ := ho
        exact hne (hh v hv)
      · obtain ⟨o, h2⟩ := Option.ne_none_iff_exists'.mp ho.1
        have : y.1 ∈ offerTimes k l := List.mem_filterMap.mpr ⟨y, hy, by rw [h2]; rfl⟩
        rw [hnil] at this; cases this
    · intro e h1
      rw [he] at h1; cases h1
      exact .inl ⟨z.1, hf, rfl⟩
  | later e e' hb hn hf he hle hr hc =>
    have hne : offerTimes k l ≠ [] := h.started.mp (by rw [hn]; simp)
    refine ⟨?_, ?_, ?_, ?_, ?_⟩
    · rw [hf, hB1 hb.1, h.first, List.getLast?_cons]
      cases hg : (offerTimes k l).getLast? with
      | none => rw [List.getLast?_eq_none_iff] at hg; exact absurd hg hne
      | some v => rfl
    · rw [he, hB1 hb.1]; simp
    · intro f e1 h1 h2
      rw [he] at h2; cases h2
      rw [hf] at h1
      rw [hd]
      exact Nat.le_trans (h.runs f e h1 hn) hle
    · intro e1 h1 y hy ho
      rw [he] at h1; cases h1
      rcases List.mem_cons.mp hy with rfl | hy
      · exact hr
      · exact Nat.le_trans (h.reply e hn y hy ho) (mono hle)
    · intro e1 h1
      rw [he] at h1; cases h1
      rcases hc with rfl | rfl
      · exact old hf.symm hn
      · exact .inr (.inl ⟨z, List.mem_cons_self, hb, rfl⟩)
  | postponed e e' hb hp hn hf he hle hc =>
    refine ⟨by rw [hf, hB0 hb]; exact h.first, ?_, ?_, ?_, ?_⟩
    · rw [he, hB0 hb, ← h.started, hn]; simp
    · intro f e1 h1 h2
      rw [he] at h2; cases h2
      rw [hf] at h1
      rw [hd]
      exact Nat.le_trans (h.runs f e h1 hn) hle
    · intro e1 h1 y hy ho
      rw [he] at h1; cases h1
      rcases List.mem_cons.mp hy with rfl | hy
      · exact absurd ho (notOut hb)
      · exact Nat.le_trans (h.reply e hn y hy ho) (mono hle)
    · intro e1 h1
      rw [he] at h1; cases h1
      exact .inr (.inr ⟨z, List.mem_cons_self, hp, hc⟩)

theorem halted_of {ws : List HaltWindow} {e : Nat} (h : inHalt ws (secs e) = true) : Halted ws (sec e) := by
  unfold inHalt at h
  simp only [List.any_eq_true, decide_eq_true_eq] at h
  exact h

theorem Batch.other {ctx : Ctx} {c : Config} {ws : List HaltWindow} {as : List Auction} {s s' : State} {ms : List Msg}
    (h : Batch p ctx c ws as s s' ms) {k : Key} (hk : k ∉ as.map Auction.key) : s'.auctions.get? k = s.auctions.get? k := by
  induction h with
  | nil => rfl
  | cons h1 _ ih =>
    simp only [List.map_cons, List.mem_cons, not_or] at hk
    rw [ih hk.2, h1.frame.2.2.2.2 k hk.1]

/-- An auction that stays open at the end of a block is untouched or postponed. -/
theorem Batch.clock {ctx : Ctx} {c : Config} {ws : List HaltWindow} {as : List Auction} {s s' : State} {ms : List Msg}
    (h : Batch p ctx c ws as s s' ms) : Stored s as → ∀ {k : Key} {b : Auction}, s'.auctions.get? k = some b →
    s.auctions.get? k = some b ∨ ∃ a e, s.auctions.get? k = some a ∧ a.endTime = some e ∧ e ≤ ctx.time ∧ Halted ws (sec e) ∧
      b = { a with endTime := some (ctx.time + c.haltPostpone * 1000000000) } := by
  induction h with
  | nil => intro _ k b hb; exact .inl hb
  | @cons a as s s1 s' m1 m2 h1 h2 ih =>
    intro hst k b hb
    by_cases e : k = a.key
    · subst e
      have hnd := hst.2
      rw [List.map_cons, List.nodup_cons] at hnd
      rw [h2.other hnd.1] at hb
      cases h1 with
      | postponed e e' he hle hin hov he' =>
        rw [AMap.get?_insert_self] at hb
        cases hb
        exact .inr ⟨a, e, hst.1 a List.mem_cons_self, he, hle, halted_of hin, by rw [he']; rfl⟩
      | sold => rw [AMap.get?_erase_self] at hb; cases hb
    · rcases ih (hst.tail h1) hb with h | ⟨v, e1, hv, h⟩
      · rw [h1.frame.2.2.2.2 k e] at h; exact .inl h
      · rw [h1.frame.2.2.2.2 k e] at hv; exact .inr ⟨v, e1, hv, h⟩

theorem turn_sudo {ctx : Ctx} {m : Sudo} {s s' : State} {msgs : List Msg} (hw : WF p me s) (h : sudo p ctx m s = .ok (s', msgs))
    {k : Key} {b : Auction} (hb : s'.auctions.get? k = some b) :
    ∃ a, s.auctions.get? k = some a ∧ b.duration = a.duration ∧ Turn k (ctx.time, ⟨s, .sudo m, s', msgs⟩) a b := by
  have same : s.auctions.get? k = some b →
      ∃ a, s.auctions.get? k = some a ∧ b.duration = a.duration ∧ Turn k (ctx.time, ⟨s, .sudo m, s', msgs⟩) a b :=
    fun h => ⟨b, h, rfl, .same rfl rfl rfl⟩
  cases sudo_eff h with
  | stop earliest s1 _ _ _ hbat =>
    rcases hbat.clock (due_stored hw) hb with h | ⟨a, e, ha, he, hle, hh, rfl⟩
    · exact same h
    · exact ⟨a, ha, rfl, .postponed e _ rfl ⟨.inl rfl, a, e, ha, he, hle, hh⟩ he rfl rfl
        (Nat.le_trans hle (Nat.le_add_right _ _)) rfl⟩
  | begin => exact same hb
  | params => exact same hb
  | setMin => exact same hb
  | unsetMin => exact same hb

theorem turn_call {ctx : Ctx} {sender : Addr} {funds : List Coin} {m : Exec} {s s' : State} {msgs : List Msg} (hr : Reach p me s)
    (hx : execute p ctx sender funds m s = .ok (s', msgs)) {k : Key} {b : Auction} (hb : s'.auctions.get? k = some b) :
    (s.auctions.get? k = none ∧ b.firstBid = none ∧ b.endTime = none) ∨
    ∃ a, s.auctions.get? k = some a ∧ b.duration = a.duration ∧ Turn k (ctx.time, ⟨s, .call sender funds m, s', msgs⟩) a b := by
  have hw := hr.wf
  have same : ∀ {a : Auction}, s.auctions.get? k = some a → b.duration = a.duration → b.firstBid = a.firstBid → b.endTime = a.endTime →
      offerBy k (.call sender funds m) = none →
      (s.auctions.get? k = none ∧ b.firstBid = none ∧ b.endTime = none) ∨
      ∃ a, s.auctions.get? k = some a ∧ b.duration = a.duration ∧ Turn k (ctx.time, ⟨s, .call sender funds m, s', msgs⟩) a b :=
    fun h h1 h2 h3 h4 => .inr ⟨_, h, h1, .same h4 h2 h3⟩
  cases execute_eff hx with
  | create coll tok r dur rec min hv hrec hown happ hno =>
    rcases ins_cases hb with ⟨rfl, rfl⟩ | ⟨_, h⟩
    · exact .inl ⟨hno, rfl, rfl⟩
    · exact same h rfl rfl rfl rfl
  | reserve coll tok r x min hv hf hx' hs hfb =>
    rcases ins_cases hb with ⟨e, rfl⟩ | ⟨_, h⟩
    · rw [(hw.auctions _ _ hx').key] at e; subst e
      exact same hx' rfl rfl rfl rfl
    · exact same h rfl rfl rfl rfl
  | cancel coll tok x hv hf hx' hs hfb =>
    dsimp only at hb
    rw [AMap.get?_erase] at hb
    split at hb
    · cases hb
    · exact same hb rfl rfl rfl rfl
  | settle coll tok x _ _ hv hf hx' hset =>
    have hg := hw.auctions _ _ hx'
    by_cases e : k = x.key
    · cases hset with
      | postponed e1 e' he hle hin hov he' =>
        subst e
        rw [AMap.get?_insert_self] at hb
        cases hb
        rw [hg.key] at *
        refine .inr ⟨x, hx', rfl, .postponed e1 e' rfl ⟨.inr ⟨sender, by rw [hf]⟩, x, e1, hx', he, hle, halted_of hin⟩ he rfl rfl ?_ ?_⟩
        · rw [he']; exact Nat.le_trans hle (Nat.le_add_right _ _)
        · exact he'
      | sold => subst e; rw [AMap.get?_erase_self] at hb; cases hb
    · rw [hset.frame.2.2.2.2 k e] at hb
      exact same hb rfl rfl rfl rfl
  | bid1 coll tok x n m e hv hx' hs hfunds hpos hm hge hend hfb hov he =>
    have hg := hw.auctions _ _ hx'
    rcases ins_cases hb with ⟨e1, rfl⟩ | ⟨e1, h⟩
    · rw [hg.key] at e1; subst e1
      refine .inr ⟨x, hx', rfl, .first (by simp [offerBy]) ?_ (hg.first.mp hfb) rfl (by rw [he]; rfl)⟩
      intro v hv'
      obtain rfl : x = v := Option.some.inj (hx'.symm.trans hv')
      exact hg.high.mpr (hg.first.mp hfb)
    · rw [hg.key] at e1
      exact same h rfl rfl rfl (by simp [offerBy, e1])
  | bid2 coll tok x n m f e e' h hv hx' hs hfunds hpos hm hge hend hfb hh hz he he' =>
    have hg := hw.auctions _ _ hx'
    rcases ins_cases hb with ⟨e1, rfl⟩ | ⟨e1, h⟩
    · rw [hg.key] at e1; subst e1
      obtain ⟨a0, b0, e0, g1, g2, g3, _, g5⟩ := C34_bid hr hx
      obtain rfl : x = a0 := Option.some.inj (hx'.symm.trans g1)
      obtain rfl := Option.some.inj (hb.symm.trans g2)
      obtain ⟨k1, k2, k3, k4⟩ := g5 e he
      refine .inr ⟨x, hx', rfl, .later e e0 ⟨by simp [offerBy], x, hx', by rw [hh]; simp⟩ he k3 g3 k1 k2 ?_⟩
      split at k4
      · exact .inr k4
      · exact .inl k4
    · rw [hg.key] at e1
      exact same h rfl rfl rfl (by simp [offerBy, e1])

/-! ### Properties -/

/-- The end of every open auction: the first bid starts the clock; from there the auction runs for its duration at least, and
leaves time to answer every later bid; and it ends no later than the duration, an answered bid or a halt makes it. -/
theorem C134_open {c : Config} {mins : List Coin} {s0 s : State} {l : List (Nat × Act)} (hi : instantiate p c mins = .ok s0)
    (h : Clocked p me s0 l s) {k : Key} {a : Auction} (ha : s.auctions.get? k = some a) :
    ∃ l1 x l2, l = l1 ++ x :: l2 ∧ Opened k l1 x ∧ Clock k a l1 := by
  induction h generalizing a with
  | nil => rw [init_empty hi] at ha; simp at ha
  | @call l s s' ctx sender funds m msgs hd hself hne hx ih =>
    rcases turn_call (hd.reach hi) hx ha with ⟨h1, h2, h3⟩ | ⟨a0, h0, h1, h2⟩
    · refine ⟨[], _, l, rfl, ⟨h1, by dsimp only; rw [ha]; simp, by simp⟩, ?_⟩
      exact ⟨by rw [h2]; rfl, by rw [h3]; simp [Spec.offerTimes], by rw [h2]; simp, by simp, by rw [h3]; simp⟩
    · obtain ⟨l1, x, l2, e, ⟨o1, o2, o3⟩, hc⟩ := ih h0
      refine ⟨_ :: l1, x, l2, by rw [e]; rfl, ⟨o1, o2, ?_⟩, hc.turn h1 h2⟩
      intro z hz
      rcases List.mem_cons.mp hz with rfl | hz
      · exact ⟨by dsimp only; rw [h0]; simp, by dsimp only; rw [ha]; simp⟩
      · exact o3 z hz
  | @sudo l s s' ctx m msgs hd hself hx ih =>
    obtain ⟨a0, h0, h1, h2⟩ := turn_sudo (hd.reach hi).wf hx ha
    obtain ⟨l1, x, l2, e, ⟨o1, o2, o3⟩, hc⟩ := ih h0
    refine ⟨_ :: l1, x, l2, by rw [e]; rfl, ⟨o1, o2, ?_⟩, hc.turn h1 h2⟩
    intro z hz
    rcases List.mem_cons.mp hz with rfl | hz
    · exact ⟨by dsimp only; rw [h0]; simp, by dsimp only; rw [ha]; simp⟩
    · exact o3 z hz

theorem Settled.closed {ctx : Ctx} {a : Auction} {c : Config} {ws : List HaltWindow} {s s' : State} {ms : List Msg}
    (h : Settled p ctx a c ws s s' ms) (hn : s'.auctions.get? a.key = none) :
    ∃ e, a.endTime = some e ∧ e ≤ ctx.time ∧ ¬ Halted ws (sec e) := by
  cases h with
  | postponed => rw [AMap.get?_insert_self] at hn; cases hn
  | sold e h roy pay he hle hout =>
    refine ⟨e, he, hle, ?_⟩
    rintro ⟨w, hw, h1, h2⟩
    have : inHalt ws (secs e) = true := by
      unfold inHalt
      simp only [List.any_eq_true, decide_eq_true_eq]
      exact ⟨w, hw, h1, h2⟩
    rw [this] at hout; cases hout

theorem Batch.closed {ctx : Ctx} {c : Config} {ws : List HaltWindow} {as : List Auction} {s s' : State} {ms : List Msg}
    (h : Batch p ctx c ws as s s' ms) : Stored s as → ∀ {k : Key} {a : Auction}, s.auctions.get? k = some a → s'.auctions.get? k = none →
    ∃ e, a.endTime = some e ∧ e ≤ ctx.time ∧ ¬ Halted ws (sec e) := by
  induction h with
  | nil => intro _ k a ha hn; rw [ha] at hn; cases hn
  | @cons v as s s1 s' m1 m2 h1 h2 ih =>
    intro hst k a ha hn
    by_cases e : k = v.key
    · subst e
      have hnd := hst.2
      rw [List.map_cons, List.nodup_cons] at hnd
      rw [h2.other hnd.1] at hn
      obtain rfl : v = a := Option.some.inj ((hst.1 v List.mem_cons_self).symm.trans ha)
      exact h1.closed hn
    · exact ih (hst.tail h1) (by rw [h1.frame.2.2.2.2 k e]; exact ha) hn

/-- An auction with a bid is closed only at or after its end, which is not inside of a known halt: the first bid was made at
least the duration ago, and every later bid at least the extension in force at that time ago. -/
theorem C134_close {c : Config} {mins : List Coin} {s0 s : State} {z : Nat × Act} {l : List (Nat × Act)} (hi : instantiate p c mins = .ok s0)
    (h : Clocked p me s0 (z :: l) s) {k : Key} {a : Auction} (ha : z.2.before.auctions.get? k = some a) (hb : a.highBid ≠ none)
    (hn : z.2.after.auctions.get? k = none) :
    ∃ l1 x l2, l = l1 ++ x :: l2 ∧ Opened k l1 x ∧ Clock k a l1 ∧
      (∃ e, a.endTime = some e ∧ e ≤ z.1 ∧ ¬ Halted z.2.before.windows (sec e)) ∧
      (∃ f, (offerTimes k l1).getLast? = some f ∧ f + a.duration * 1000000000 ≤ z.1) ∧
      ∀ y ∈ l1, Outbids k y → sec y.1 + y.2.before.config.extendDuration ≤ sec z.1 := by
  have fin : ∀ {l : List (Nat × Act)} {s : State}, Clocked p me s0 l s → s.auctions.get? k = some a →
      (∃ e, a.endTime = some e ∧ e ≤ z.1 ∧ ¬ Halted z.2.before.windows (sec e)) →
      ∃ l1 x l2, l = l1 ++ x :: l2 ∧ Opened k l1 x ∧ Clock k a l1 ∧
        (∃ e, a.endTime = some e ∧ e ≤ z.1 ∧ ¬ Halted z.2.before.windows (sec e)) ∧
        (∃ f, (offerTimes k l1).getLast? = some f ∧ f + a.duration * 1000000000 ≤ z.1) ∧
        ∀ y ∈ l1, Outbids k y → sec y.1 + y.2.before.config.extendDuration ≤ sec z.1 := by
    intro l s hd hs he
    obtain ⟨l1, x, l2, el, ho, hc⟩ := C134_open hi hd hs
    obtain ⟨e, h1, h2, h3⟩ := he
    refine ⟨l1, x, l2, el, ho, hc, ⟨e, h1, h2, h3⟩, ?_, ?_⟩
    · cases hf : a.firstBid with
      | none =>
        have hg := (hd.reach hi).wf.auctions _ _ hs
        rw [hg.first.mp hf] at h1; cases h1
      | some f => exact ⟨f, by rw [← hc.first, hf], Nat.le_trans (hc.runs f e hf h1) h2⟩
    · intro y hy ho
      exact Nat.le_trans (hc.reply e h1 y hy ho) (Nat.div_le_div_right h2)
  cases h with
  | @call l s s' ctx sender funds m msgs hd hself hne hx =>
    dsimp only at ha hn
    have stay : ∀ {k' : Key} {v : Auction}, (s.auctions.insert k' v).get? k ≠ none := by
      intro k' v e
      rw [AMap.get?_insert] at e
      split at e
      · cases e
      · rw [ha] at e; cases e
    have hw := (hd.reach hi).wf
    cases execute_eff hx with
    | create => exact absurd hn stay
    | reserve => exact absurd hn stay
    | bid1 => exact absurd hn stay
    | bid2 => exact absurd hn stay
    | settle coll tok v _ _ hv hf hv' hset =>
      by_cases e : k = v.key
      · have hk := (hw.auctions _ _ hv').key
        subst e
        rw [hk] at ha
        obtain rfl : v = a := Option.some.inj (hv'.symm.trans ha)
        exact fin hd (by rw [hk]; exact ha) (hset.closed hn)
      · rw [hset.frame.2.2.2.2 k e, ha] at hn; cases hn
    | cancel coll tok v hv hf hv' hs hfb =>
      rw [AMap.get?_erase] at hn
      split at hn
      · rename_i e
        have hg := hw.auctions _ _ hv'
        rw [hg.key] at e
        subst e
        obtain rfl : v = a := Option.some.inj (hv'.symm.trans ha)
        exact absurd (hg.high.mpr (hg.first.mp hfb)) hb
      · rw [ha] at hn; cases hn
  | @sudo l s s' ctx m msgs hd hself hx =>
    dsimp only at ha hn
    cases sudo_eff hx with
    | stop earliest s1 _ _ _ hbat => exact fin hd ha (hbat.closed (due_stored (hd.reach hi).wf) ha hn)
    | begin => rw [show s.auctions.get? k = none from hn] at ha; cases ha
    | params => rw [show s.auctions.get? k = none from hn] at ha; cases ha
    | setMin => rw [show s.auctions.get? k = none from hn] at ha; cases ha
    | unsetMin => rw [show s.auctions.get? k = none from hn] at ha; cases ha

namespace Sample
def stamp (c : Ctx) (sender : Addr) (funds : List Coin) (m : Exec) (s : State) : Nat × Act := (c.time, noteAct c sender funds m s)
theorem tick {s0 s : State} {l : List (Nat × Act)} {c : Ctx} {sender : Addr} {funds : List Coin} {m : Exec}
    (hd : Clocked P self s0 l s) (hself : c.self = self) (hne : sender ≠ self) (h : ok c sender funds m s = true) :
    Clocked P self s0 (stamp c sender funds m s :: l) (run c sender funds m s).1 :=
  .call hd hself hne (run_eq h)

/-- the sample history up to the second bid, with its times -/
def clock4 : List (Nat × Act) :=
  [stamp (ctx 1040500) carol [⟨ust, 120⟩] (.bid coll tok) s3,
   stamp (ctx 1000000) bob [⟨ust, 100⟩] (.bid coll tok) s2,
   stamp (ctx 1000000 (some alice)) alice [⟨ust, 5⟩] (.create coll tok ⟨ust, 100⟩ 60 none) s1,
   ((ctx 1000000).time, ⟨s0, .sudo .beginBlock, s1, (srun (ctx 1000000) .beginBlock s0).2⟩)]

theorem clock4_ok : Clocked P self s0 clock4 s4 := by
  have o0 : sok (ctx 1000000) .beginBlock s0 = true := by decide +kernel
  have o1 : ok (ctx 1000000 (some alice)) alice [⟨ust, 5⟩] (.create coll tok ⟨ust, 100⟩ 60 none) s1 = true := by decide +kernel
  have o2 : ok (ctx 1000000) bob [⟨ust, 100⟩] (.bid coll tok) s2 = true := by decide +kernel
  have o3 : ok (ctx 1040500) carol [⟨ust, 120⟩] (.bid coll tok) s3 = true := by decide +kernel
  have d0 : Clocked P self s0 _ s1 := .sudo (ctx := ctx 1000000) .nil rfl (srun_eq o0)
  exact tick (tick (tick d0 rfl (by decide) o1) rfl (by decide) o2) rfl (by decide) o3

/-- The second bid moved the end from 1060 s to 1070.5 s. -/
example : (s3.auctions.get? (coll, tok)).map Auction.endTime = some (some 1060000000000) ∧
    (s4.auctions.get? (coll, tok)).map Auction.endTime = some (some 1070500000000) ∧
    offerTimes (coll, tok) clock4 = [1040500000000, 1000000000000] := by decide +kernel
example {a : Auction} (h : s4.auctions.get? (coll, tok) = some a) := C134_open init0 clock4_ok h
example {a : Auction} (h : s4.auctions.get? (coll, tok) = some a) (hb : a.highBid ≠ none) :=
  C134_close init0 (tick (c := ctx 1080000) (sender := bob) (funds := []) (m := .settle coll tok) clock4_ok rfl (by decide) (by decide +kernel))
    (k := (coll, tok)) h hb (by decide +kernel)
example : (s4.auctions.get? (coll, tok)).map (fun a => a.highBid.isSome) = some true := by decide +kernel
end Sample

end
end Verif.Auction

/-
Reserve auction: properties of the begin-block and end-block hooks (C37-C40, C66).
-/
import Verif.Auction.PropsFunds

namespace Verif.Auction
open Verif Spec

variable {p : Params} {me : Addr} {honest : Addr → Prop}

/-! ### Lemmas about the batch -/

theorem endKey_le {ctx : Ctx} {a : Auction} (ht : ctx.time ≤ U64MAX) :
    a.endKey ≤ secs ctx.time ↔ (match a.endTime with
      | some e => decide (sec e ≤ sec ctx.time)
      | none => false) = true := by
  unfold Auction.endKey
  cases a.endTime with
  | some e => simp [secs_eq]
  | none =>
    have h2 : secs ctx.time ≤ U64MAX / NS := Nat.div_le_div_right ht
    have := U64_big
    simp only [Bool.false_eq_true, iff_false]
    omega

theorem allDue_length {ctx : Ctx} {s : State} (ht : ctx.time ≤ U64MAX) : (allDue ctx s).length = dueCount s ctx.time := by
  unfold allDue scan dueCount
  simp only [Bool.false_eq_true, if_false]
  rw [← List.countP_eq_length_filter, ← List.countP_eq_length_filter]
  rw [(sortBy_perm (le := fun a b : (Nat × Bytes) × Auction => pkLe a.1 b.1) (endEntries s)).countP_eq]
  unfold endEntries AMap.vals
  rw [List.countP_map, List.countP_map]
  apply List.countP_congr
  rintro ⟨k, a⟩ _
  simp only [Function.comp, okMin, Bool.true_and]
  rw [okMax_end, endKey_le ht]
  exact Iff.rfl

/-- Settling does not depend on the rest of the store. -/
theorem Settled.move {ctx : Ctx} {a : Auction} {c : Config} {ws : List HaltWindow} {s s' : State} {ms : List Msg}
    (h : Settled p ctx a c ws s s' ms) (t : State) : ∃ t', Settled p ctx a c ws t t' ms := by
  cases h with
  | postponed e e' he hle hin hov he' => exact ⟨_, .postponed e e' he hle hin hov he'⟩
  | sold e b roy pay he hle hout hh hroy hpay => exact ⟨_, .sold e b roy pay he hle hout hh hroy hpay⟩

theorem batch_all {ctx : Ctx} {c : Config} {ws : List HaltWindow} : ∀ {as : List Auction} (s : State),
    (∀ a ∈ as, ∃ t t' ms, Settled p ctx a c ws t t' ms) → ∃ s' ms, Batch p ctx c ws as s s' ms
  | [], s, _ => ⟨s, [], .nil s⟩
  | a :: as, s, h => by
    obtain ⟨t, t', ms, h1⟩ := h a List.mem_cons_self
    obtain ⟨s1, h2⟩ := h1.move s
    obtain ⟨s', ms', h3⟩ := batch_all s1 (fun b hb => h b (List.mem_cons_of_mem _ hb))
    exact ⟨s', _, .cons h2 h3⟩

theorem settleable_iff {ctx : Ctx} {s : State} {k : Key} {a : Auction} (ha : s.auctions.get? k = some a) (hv : p.valid k.1 = true) {sender : Addr} :
    (∃ r, execute p ctx sender [] (.settle k.1 k.2) s = .ok r) ↔ ∃ s' ms, Settled p ctx a s.config s.windows s s' ms := by
  constructor
  · rintro ⟨⟨s', ms⟩, h⟩
    cases execute_eff h with
    | settle _ _ y _ _ _ _ hy hs =>
      rw [show (k.1, k.2) = k from rfl, ha] at hy; cases hy
      exact ⟨s', ms, hs⟩
  · rintro ⟨s', ms, h⟩
    refine ⟨(s', [] ++ ms), ?_⟩
    rw [← settle_of_eff h]
    unfold execute executeSettle
    simp only [addrValidate, hv, if_true, ok_bind, nonpayable, ensure, ha, orErr]

theorem endBlock_of {ctx : Ctx} {s s' : State} {ms : List Msg} (ht : ctx.time ≤ U64MAX)
    (hb : Batch p ctx s.config s.windows (dueAuctions ctx s) s s' ms) : ∃ ws, sudo p ctx .endBlock s = .ok ({ s' with windows := ws }, ms) := by
  unfold sudo endBlock
  have hall := batch_of_eff (ms := []) hb
  cases hd : (dueAuctions ctx s).head? with
  | none =>
    simp only []
    rw [ok_bind, hall, ok_bind]
    exact ⟨_, rfl⟩
  | some a =>
    obtain ⟨e, he, _⟩ := due_secs ht (List.mem_of_mem_head? hd)
    simp only [he, orErr]
    rw [ok_bind, ok_bind, hall, ok_bind]
    exact ⟨_, rfl⟩

theorem due_iff {ctx : Ctx} {s : State} (hw : WF p me s) {k : Key} {a : Auction} {e : Nat} (ha : s.auctions.get? k = some a)
    (he : a.endTime = some e) : (∃ x ∈ allDue ctx s, x.2.key = k) ↔ sec e ≤ sec ctx.time := by
  constructor
  · rintro ⟨x, hx, hk⟩
    obtain ⟨k', h1, _, h3⟩ := mem_allDue.mp hx
    rw [(hw.auctions _ _ h1).key] at hk
    subst hk
    rw [ha] at h1; cases h1
    unfold Auction.endKey at h3
    rw [he] at h3
    exact h3
  · intro hle
    refine ⟨((a.endKey, pkBytes k), a), mem_allDue.mpr ⟨k, ha, rfl, ?_⟩, (hw.auctions _ _ ha).key⟩
    unfold Auction.endKey
    rw [he]; exact hle

/-! ### C37 -/

/-- One end-block call processes a list `L` of tokens: at most the configured number; only auctions in `L` can change; all
in `L` have ended, and are now removed or postponed; and no auction outside `L` ends in an earlier second than one in `L`. -/
theorem C37_batch {s s' : State} {ctx : Ctx} {msgs : List Msg} (hr : Reach p me s) (ht : ctx.time < 2^64)
    (h : sudo p ctx .endBlock s = .ok (s', msgs)) :
    ∃ L : List Key, L.Nodup ∧ L.length ≤ s.config.maxSettle ∧
      (∀ k, s'.auctions.get? k ≠ s.auctions.get? k → k ∈ L) ∧
      (∀ k ∈ L, EndedBy s k ctx.time) ∧
      (∀ k ∈ L, ∀ a, s.auctions.get? k = some a → s'.auctions.get? k = none ∨
        s'.auctions.get? k = some { a with endTime := some (ctx.time + s.config.haltPostpone * 1000000000) }) ∧
      (∀ k ∈ L, ∀ j, j ∉ L → ∀ a b e f, s.auctions.get? k = some a → a.endTime = some e → s.auctions.get? j = some b →
        b.endTime = some f → sec e ≤ sec f) ∧
      (s.config.maxSettle < 2^32 → L.length = Nat.min s.config.maxSettle (dueCount s ctx.time)) := by
  have hw := hr.wf
  have ht' : ctx.time ≤ U64MAX := Nat.le_of_lt_succ ht
  have hst := due_stored (ctx := ctx) hw
  cases sudo_eff h with
  | stop earliest s1 _ _ _ hb =>
    refine ⟨(dueAuctions ctx s).map Auction.key, hst.2, ?_, ?_, ?_, ?_, ?_, ?_⟩
    · rw [due_eq, List.length_map, List.length_map, List.length_take]
      exact Nat.le_trans (Nat.min_le_left _ _) (Nat.mod_le _ _)
    · intro k hk
      refine Decidable.byContradiction fun hn => hk ?_
      exact hb.frame.2.2.2.2 k (fun b hb' e => hn (e ▸ List.mem_map_of_mem hb'))
    · intro k hk
      obtain ⟨b, hb1, rfl⟩ := List.mem_map.mp hk
      obtain ⟨t, t', m1, x1, x2, x3, _⟩ := hb.mem hst b hb1
      cases x1 with
      | postponed e e' he hle => exact ⟨b, e, hst.1 b hb1, he, hle⟩
      | sold e hb roy pay he hle => exact ⟨b, e, hst.1 b hb1, he, hle⟩
    · intro k hk a ha
      obtain ⟨b, hb1, rfl⟩ := List.mem_map.mp hk
      obtain ⟨t, t', m1, x1, x2, x3, _⟩ := hb.mem hst b hb1
      have hab := Option.some.inj ((hst.1 b hb1).symm.trans ha)
      subst hab
      have x3' := x3
      cases x1 with
      | postponed e e' he hle _ _ he' => right; subst he'; exact x3'.trans (AMap.get?_insert_self _ _ _)
      | sold e hb roy pay he hle => left; exact x3'.trans (AMap.get?_erase_self _ _)
    · intro k hk j hj a b e f ha he hb' hf
      by_cases hle : sec f ≤ sec ctx.time
      · obtain ⟨y, hy1, hy2⟩ := (due_iff hw hb' hf).mpr hle
        obtain ⟨x', hx1, hx2⟩ := List.mem_map.mp hk
        rw [due_eq] at hx1
        obtain ⟨x, hx3, hx4⟩ := List.mem_map.mp hx1
        have hsort : (allDue ctx s).Pairwise (fun a b => pkLe a.1 b.1 = true) := scan_sorted pkLe_total pkLe_trans _ _ _
        rw [← List.take_append_drop (s.config.maxSettle % 2^32) (allDue ctx s)] at hsort hy1
        rcases List.mem_append.mp hy1 with hy1 | hy1
        · exfalso
          apply hj
          rw [due_eq, List.map_map]
          exact List.mem_map.mpr ⟨y, hy1, hy2⟩
        · have hxy := (List.pairwise_append.mp hsort).2.2 x hx3 y hy1
          obtain ⟨k1, i1, i2, _⟩ := mem_allDue.mp (List.mem_of_mem_take hx3)
          obtain ⟨k2, j1, j2, _⟩ := mem_allDue.mp (List.mem_of_mem_drop hy1)
          have hk1 : k1 = k := by rw [← (hw.auctions _ _ i1).key, hx4, hx2]
          have hk2 : k2 = j := by rw [← (hw.auctions _ _ j1).key, hy2]
          subst hk1; subst hk2
          rw [ha] at i1; rw [hb'] at j1
          cases i1; cases j1
          rw [i2, j2] at hxy
          have : x.2.endKey ≤ y.2.endKey := by
            unfold pkLe at hxy
            simp at hxy
            omega
          unfold Auction.endKey at this
          rw [he, hf] at this
          exact this
      · have : sec e ≤ sec ctx.time := by
          refine (due_iff (ctx := ctx) hw ha he).mp ?_
          obtain ⟨x', hx1, hx2⟩ := List.mem_map.mp hk
          rw [due_eq] at hx1
          obtain ⟨x, hx3, hx4⟩ := List.mem_map.mp hx1
          exact ⟨x, List.mem_of_mem_take hx3, by rw [hx4, hx2]⟩
        omega
    · intro hlt
      rw [due_eq, List.length_map, List.length_map, List.length_take, allDue_length ht', Nat.mod_eq_of_lt hlt]

/-- Non-vacuous: three tokens ended, the limit is two; the earliest two are settled. -/
def Sample.t1 : State := (Sample.run (Sample.ctx 1000000 (some Sample.alice)) Sample.alice [⟨Sample.ust, 5⟩] (.create Sample.coll [50] ⟨Sample.ust, 100⟩ 20 none) Sample.s3).1
def Sample.t2 : State := (Sample.run (Sample.ctx 1000000 (some Sample.alice)) Sample.alice [⟨Sample.ust, 5⟩] (.create Sample.coll [51] ⟨Sample.ust, 100⟩ 40 none) Sample.t1).1
def Sample.t3 : State := (Sample.run (Sample.ctx 1000000) Sample.bob [⟨Sample.ust, 100⟩] (.bid Sample.coll [50]) Sample.t2).1
def Sample.t4 : State := (Sample.run (Sample.ctx 1000000) Sample.bob [⟨Sample.ust, 100⟩] (.bid Sample.coll [51]) Sample.t3).1
theorem Sample.rt4 : Reach Sample.P Sample.self Sample.t4 :=
  Sample.next (Sample.next (Sample.next (Sample.next Sample.r3 (by decide +kernel) rfl (by decide)) (by decide +kernel) rfl (by decide))
    (by decide +kernel) rfl (by decide)) (by decide +kernel) rfl (by decide)
example : Sample.sok (Sample.ctx 1060000) .endBlock Sample.t4 = true ∧ dueCount Sample.t4 1060000000000 = 3 ∧
    (Sample.srun (Sample.ctx 1060000) .endBlock Sample.t4).1.auctions.get? (Sample.coll, [50]) = none ∧
    (Sample.srun (Sample.ctx 1060000) .endBlock Sample.t4).1.auctions.get? (Sample.coll, [51]) = none ∧
    (Sample.srun (Sample.ctx 1060000) .endBlock Sample.t4).1.auctions.get? (Sample.coll, Sample.tok) ≠ none := by
  decide +kernel

/-! ### C38 -/

/-- If every due auction either could be settled by a call at this time or has not quite ended, the hook succeeds. -/
def C38_statement : Prop :=
  ∀ (p : Params) (me : Addr) (s : State) (ctx : Ctx) (sender : Addr), LibOk p.lib → Reach p me s → ctx.time < 2^64 →
    (∀ k a e, s.auctions.get? k = some a → a.endTime = some e → sec e ≤ sec ctx.time →
      ctx.time < e ∨ ∃ r, execute p ctx sender [] (.settle k.1 k.2) s = .ok r) →
    ∃ r, sudo p ctx .endBlock s = .ok r

theorem Sample.s4_only {k : Key} {a : Auction} (h : Sample.s4.auctions.get? k = some a) : a.endTime = some 1070500000000 := by
  have h1 : (k, a) ∈ Sample.s4.auctions.l := AMap.mem_iff.mpr h
  have h2 : Sample.s4.auctions.l.all (fun x => x.2.endTime == some 1070500000000) = true := by decide +kernel
  have := List.all_eq_true.mp h2 _ h1
  simpa using this

/-- The code violates it: the auction ends at 1070.5 s, the block is at 1070.2 s. -/
theorem C38_violated : ¬ C38_statement := by
  intro h
  refine absurd (h Sample.P Sample.self Sample.s4 (Sample.ctx 1070200) Sample.bob Sample.libOk Sample.r4 (by decide) ?_)
    (Sample.sfail (by decide +kernel))
  intro k a e ha he _
  rw [Sample.s4_only ha] at he
  cases he
  left; decide

/-- Part that holds: if every auction ending in or before the current second can be settled individually, the hook
succeeds. -/
theorem C38_partial {s : State} {ctx : Ctx} {sender : Addr} (hr : Reach p me s) (ht : ctx.time < 2^64)
    (hall : ∀ k a e, s.auctions.get? k = some a → a.endTime = some e → sec e ≤ sec ctx.time →
      ∃ r, execute p ctx sender [] (.settle k.1 k.2) s = .ok r) :
    ∃ r, sudo p ctx .endBlock s = .ok r := by
  have hw := hr.wf
  have ht' : ctx.time ≤ U64MAX := Nat.le_of_lt_succ ht
  have hst := due_stored (ctx := ctx) hw
  obtain ⟨s', ms, hb⟩ := batch_all (p := p) (ctx := ctx) (c := s.config) (ws := s.windows) (as := dueAuctions ctx s) s (by
    intro a ha
    obtain ⟨e, he, hle⟩ := due_secs ht' ha
    have hs := hst.1 a ha
    obtain ⟨s', ms, h⟩ := (settleable_iff hs (hw.auctions _ _ hs).valid).mp (hall a.key a e hs he hle)
    exact ⟨s, s', ms, h⟩)
  obtain ⟨ws, h⟩ := endBlock_of ht' hb
  exact ⟨_, h⟩

example : Sample.sok (Sample.ctx 1070500) .endBlock Sample.s4 = true ∧
    Sample.ok (Sample.ctx 1070500) Sample.bob [] (.settle Sample.coll Sample.tok) Sample.s4 = true := by decide +kernel

/-! ### C39 -/

/-- A halt detected at `ctx` (the previous block is at least the threshold ago) protects, in every later history with
non-decreasing block times, each auction ending strictly inside the window: a settlement call leaves it open. -/
def C39_statement : Prop :=
  ∀ (p : Params) (me : Addr) (s s1 s2 s3 : State) (ctx ctx' : Ctx) (t2 : Nat) (m1 m3 : List Msg) (k : Key) (sender : Addr) (f : List Coin),
    LibOk p.lib → Reach p me s → ctx.self = me → ctx'.self = me → sudo p ctx .beginBlock s = .ok (s1, m1) →
    0 < s.prevBlock → s.prevBlock + s.config.haltThreshold ≤ sec ctx.time →
    Timed p me ctx.time s1 t2 s2 → t2 ≤ ctx'.time →
    EndsIn s2 k ⟨s.prevBlock, sec ctx.time + s.config.haltBuffer⟩ →
    execute p ctx' sender f (.settle k.1 k.2) s2 = .ok (s3, m3) → s3.auctions.get? k ≠ none

namespace Sample
/-- at 1000 s an auction of 120 s receives its first bid -/
def h1 : State := (run (ctx 1000000 (some alice)) alice [⟨ust, 5⟩] (.create coll tok ⟨ust, 100⟩ 120 none) s1).1
def h2 : State := (run (ctx 1000000) bob [⟨ust, 100⟩] (.bid coll tok) h1).1
theorem rh2 : Reach P self h2 := next (next r1 (by decide +kernel) rfl (by decide)) (by decide +kernel) rfl (by decide)
/-- the next block is at 1100 s: halt window 1000..1150 s -/
def h3 : State := (srun (ctx 1100000) .beginBlock h2).1
theorem rh3 : Reach P self h3 := snext rh2 (by decide +kernel) rfl
/-- the end-block hook of the same block finds nothing due and forgets the window -/
def h4 : State := (srun (ctx 1100000) .endBlock h3).1
/-- at 1130 s the auction, which ended at 1120 s, is settled -/
def h5 : State := (run (ctx 1130000) bob [] (.settle coll tok) h4).1
end Sample

/-- The code violates it. -/
theorem C39_violated : ¬ C39_statement := by
  intro h
  have h5 := h Sample.P Sample.self Sample.h2 Sample.h3 Sample.h4 Sample.h5 (Sample.ctx 1100000) (Sample.ctx 1130000) (Sample.ctx 1100000).time
    _ _ (Sample.coll, Sample.tok) Sample.bob [] Sample.libOk Sample.rh2 rfl rfl (Sample.srun_eq (by decide +kernel)) (by decide +kernel)
    (by decide +kernel)
    (.sudo (ctx := Sample.ctx 1100000) (m := .endBlock) .refl (Nat.le_refl _) rfl (Sample.srun_eq (by decide +kernel)))
    (by decide)
    ⟨⟨Sample.coll, Sample.tok, Sample.alice, ⟨Sample.ust, 100⟩, 120, some 1120000000000, none, some ⟨⟨Sample.ust, 100⟩, Sample.bob⟩,
      some 1000000000000⟩, 1120000000000, by decide +kernel, rfl, by decide +kernel, by decide +kernel⟩
    (Sample.run_eq (by decide +kernel))
  exact h5 (by decide +kernel)

/-- Part that holds (1): while the window is stored, neither a call nor the end-block hook settles an auction ending
inside it; the auction stays open, with the same bid. -/
theorem C39_partial (hl : LibOk p.lib) {s s' : State} {ctx : Ctx} {msgs : List Msg} (hr : Reach p me s) {w : HaltWindow} (hw : w ∈ s.windows)
    {k : Key} {a : Auction} {e : Nat} (ha : s.auctions.get? k = some a) (he : a.endTime = some e) (h1 : w.start < sec e) (h2 : sec e < w.stop)
    (h : (∃ sender f, execute p ctx sender f (.settle k.1 k.2) s = .ok (s', msgs)) ∨ sudo p ctx .endBlock s = .ok (s', msgs)) :
    ∃ e', e ≤ e' ∧ s'.auctions.get? k = some { a with endTime := some e' } := by
  have key : ∀ {m : List Msg}, Outcome p ctx.q s s' ctx.time k a m → ∃ e', e ≤ e' ∧ s'.auctions.get? k = some { a with endTime := some e' } := by
    intro m ho
    cases ho with
    | postponed e1 w1 he1 hle _ _ _ h => rw [he] at he1; cases he1; exact ⟨_, Nat.le_trans hle (Nat.le_add_right _ _), h⟩
    | sold e1 b roy pay he1 hle hout => rw [he] at he1; cases he1; exact absurd ⟨h1, h2⟩ (hout w hw)
  rcases h with ⟨sender, f, h⟩ | h
  · obtain ⟨_, a', ha', ho, _⟩ := C35_settle hl hr h
    rw [show (k.1, k.2) = k from rfl, ha] at ha'; cases ha'
    exact key ho
  · rcases C35_batch hl hr h ha with ⟨h3, _⟩ | ⟨pre, m, post, _, ho, _⟩
    · refine ⟨e, Nat.le_refl _, ?_⟩
      rw [h3, ← he]
    · exact key ho

/-- Part that holds (2): the begin-block hook of a block at least `haltThreshold` after the previous one records the window. -/
theorem C39_partial_detect {s s' : State} {ctx : Ctx} {msgs : List Msg} (h : sudo p ctx .beginBlock s = .ok (s', msgs)) :
    s'.prevBlock = sec ctx.time ∧ s'.auctions = s.auctions ∧ msgs = [] ∧
    (0 < s.prevBlock ∧ s.prevBlock + s.config.haltThreshold ≤ sec ctx.time →
      s'.windows = s.windows ++ [⟨s.prevBlock, sec ctx.time + s.config.haltBuffer⟩]) ∧
    (¬ (0 < s.prevBlock ∧ s.prevBlock + s.config.haltThreshold ≤ sec ctx.time) → s'.windows = s.windows) := by
  cases sudo_eff h with
  | begin ws hle hws =>
    rw [secs_eq] at *
    refine ⟨rfl, rfl, rfl, ?_, ?_⟩
    · rintro ⟨h1, h2⟩
      rw [if_pos ⟨h1, by omega⟩] at hws; exact hws
    · intro hn
      rw [if_neg (fun h => hn ⟨h.1, by omega⟩)] at hws; exact hws

/-- Part that holds (3): windows are forgotten only by the end-block hook, only the oldest one, one per block, and only if no
auction is due or the earliest due auction ended after the window. -/
theorem C39_partial_keep {s s' : State} (hr : Reach p me s) :
    (∀ ctx sender funds m msgs, execute p ctx sender funds m s = .ok (s', msgs) → s'.windows = s.windows) ∧
    (∀ ctx m msgs, sudo p ctx m s = .ok (s', msgs) → m ≠ .endBlock → ∃ more, s'.windows = s.windows ++ more) ∧
    (∀ ctx msgs, ctx.time < 2^64 → sudo p ctx .endBlock s = .ok (s', msgs) →
      s'.windows = s.windows ∨ ∃ w rest, s.windows = w :: rest ∧ s'.windows = rest ∧
        ∀ k a e, s.config.maxSettle % 2^32 ≠ 0 → s.auctions.get? k = some a → a.endTime = some e → sec e ≤ sec ctx.time → w.stop < sec e) := by
  have hw := hr.wf
  refine ⟨?_, ?_, ?_⟩
  · intro ctx sender funds m msgs h
    cases execute_eff h with
    | settle _ _ a _ _ hv hf ha hs => exact hs.frame.2.2.2.1
    | _ => rfl
  · intro ctx m msgs h hm
    cases sudo_eff h with
    | begin ws hle hws =>
      split at hws
      · exact ⟨_, hws⟩
      · exact ⟨[], by rw [hws]; simp⟩
    | stop => exact absurd rfl hm
    | params => exact ⟨[], by simp⟩
    | setMin => exact ⟨[], by simp⟩
    | unsetMin => exact ⟨[], by simp⟩
  · intro ctx msgs ht h
    have ht' : ctx.time ≤ U64MAX := Nat.le_of_lt_succ ht
    cases sudo_eff h with
    | stop earliest s1 _ hhead hnone hb =>
      show dropStale s.windows earliest = s.windows ∨ _
      cases hws : s.windows with
      | nil => left; rfl
      | cons w rest =>
        cases hd : allDue ctx s with
        | nil =>
          right
          have hn : earliest = none := hnone (by rw [due_eq, hd]; simp)
          refine ⟨w, rest, rfl, ?_, ?_⟩
          · show dropStale (w :: rest) earliest = rest
            rw [hn]; rfl
          · intro k a e _ ha he hle
            obtain ⟨x, hx, _⟩ := (due_iff hw ha he).mpr hle
            rw [hd] at hx; cases hx
        | cons x xs =>
          by_cases hz : s.config.maxSettle % 2^32 = 0
          · right
            have hn : earliest = none := hnone (by rw [due_eq, hz]; simp)
            refine ⟨w, rest, rfl, ?_, fun k a e hnz => absurd hz hnz⟩
            show dropStale (w :: rest) earliest = rest
            rw [hn]; rfl
          · have hh : (dueAuctions ctx s).head? = some x.2 := by
              rw [due_eq, hd]
              cases hm : s.config.maxSettle % 2^32 with
              | zero => exact absurd hm hz
              | succ n => simp
            obtain ⟨h1, h2⟩ := hhead _ hh
            cases earliest with
            | none => exact absurd rfl h2
            | some e0 =>
              by_cases hst : w.stop < secs e0
              · right
                refine ⟨w, rest, rfl, ?_, ?_⟩
                · show dropStale (w :: rest) (some e0) = rest
                  simp [dropStale, hst]
                · intro k a e _ ha he hle
                  obtain ⟨y, hy1, hy2⟩ := (due_iff hw ha he).mpr hle
                  have hsort : (allDue ctx s).Pairwise (fun a b => pkLe a.1 b.1 = true) := scan_sorted pkLe_total pkLe_trans _ _ _
                  have hx : x ∈ allDue ctx s := by rw [hd]; exact List.mem_cons_self
                  obtain ⟨k1, i1, i2, _⟩ := mem_allDue.mp hx
                  obtain ⟨k2, j1, j2, _⟩ := mem_allDue.mp hy1
                  have hk2 : k2 = k := by rw [← (hw.auctions _ _ j1).key, hy2]
                  subst hk2
                  rw [ha] at j1; cases j1
                  have hxy : x.2.endKey ≤ y.2.endKey := by
                    rw [hd] at hsort hy1
                    rcases List.mem_cons.mp hy1 with rfl | hy1
                    · exact Nat.le_refl _
                    · have := (List.pairwise_cons.mp hsort).1 y hy1
                      rw [i2, j2] at this
                      unfold pkLe at this
                      simp at this
                      omega
                  unfold Auction.endKey at hxy
                  rw [h1, he] at hxy
                  exact Nat.lt_of_lt_of_le hst hxy
              · left
                show dropStale (w :: rest) (some e0) = _
                simp [dropStale, hst]

/-- Part that holds (4): the oldest window is forgotten as soon as no due auction can concern it. -/
theorem C39_partial_forget {s s' : State} {ctx : Ctx} {msgs : List Msg} (hr : Reach p me s)
    (h : sudo p ctx .endBlock s = .ok (s', msgs)) {w : HaltWindow} {rest : List HaltWindow} (hws : s.windows = w :: rest)
    (hno : ∀ k a e, s.auctions.get? k = some a → a.endTime = some e → sec e ≤ sec ctx.time → w.stop < sec e) :
    s'.windows = rest := by
  have hw := hr.wf
  cases sudo_eff h with
  | stop earliest s1 _ hhead hnone hb =>
    show dropStale s.windows earliest = rest
    rw [hws]
    have hst := due_stored (ctx := ctx) hw
    cases hd : dueAuctions ctx s with
    | nil => rw [hnone (by rw [hd]; rfl)]; rfl
    | cons x xs =>
      have hx : x ∈ dueAuctions ctx s := by rw [hd]; exact List.mem_cons_self
      obtain ⟨h1, h2⟩ := hhead x (by rw [hd]; rfl)
      cases he : earliest with
      | none => exact absurd he h2
      | some e0 =>
        rw [he] at h1
        have hx' := hx
        rw [due_eq] at hx'
        obtain ⟨y, hy1, hy2⟩ := List.mem_map.mp hx'
        have hle := (due_iff (ctx := ctx) hw (hst.1 x hx) h1).mp ⟨y, List.mem_of_mem_take hy1, by rw [hy2]⟩
        have := hno _ _ _ (hst.1 x hx) h1 hle
        have hlt : w.stop < secs e0 := this
        simp [dropStale, hlt]

/-- Non-vacuous: the end-block hook of the same block forgets the window of 1000..1150 s. -/
example : Sample.h3.windows = [⟨1000, 1150⟩] ∧ Sample.h4.windows = [] := by decide +kernel

/-- Non-vacuous: at 1120 s (before any end-block) the auction is postponed to 1180 s. -/
example : Sample.h3.windows = [⟨1000, 1150⟩] ∧
    ((Sample.run (Sample.ctx 1120000) Sample.bob [] (.settle Sample.coll Sample.tok) Sample.h3).1.auctions.get? (Sample.coll, Sample.tok)).map
      (fun a => a.endTime) = some (some 1180000000000) := by decide +kernel

/-! ### C40 -/

/-- If an auction can be settled by a call and the limit is not reached, the hook succeeds and settles it, whatever the
other auctions are. -/
def C40_statement : Prop :=
  ∀ (p : Params) (me : Addr) (s : State) (ctx : Ctx) (sender : Addr) (k : Key) (s1 : State) (m1 : List Msg),
    LibOk p.lib → Reach p me s → ctx.time < 2^64 →
    (∀ j a e, s.auctions.get? j = some a → a.endTime = some e → e ≤ ctx.time) → dueCount s ctx.time ≤ s.config.maxSettle →
    s.config.maxSettle < 2^32 →
    execute p ctx sender [] (.settle k.1 k.2) s = .ok (s1, m1) →
    ∃ s' msgs, sudo p ctx .endBlock s = .ok (s', msgs) ∧ s'.auctions.get? k = s1.auctions.get? k

namespace Sample
/-- bob also bids on a token of a collection asking for 200% royalty -/
def e1 : State := (run (ctx 1000000 (some alice)) alice [⟨ust, 5⟩] (.create evil [50] ⟨ust, 100⟩ 60 none) s3).1
def e2 : State := (run (ctx 1000000) bob [⟨ust, 100⟩] (.bid evil [50]) e1).1
theorem re2 : Reach P self e2 := next (next r3 (by decide +kernel) rfl (by decide)) (by decide +kernel) rfl (by decide)
end Sample

/-- The code violates it: nothing is settled because the other auction cannot be. -/
theorem C40_violated : ¬ C40_statement := by
  intro h
  obtain ⟨s', ms, h1, _⟩ := h Sample.P Sample.self Sample.e2 (Sample.ctx 1060000) Sample.bob (Sample.coll, Sample.tok) _ _ Sample.libOk Sample.re2
    (by decide) (by
      intro j a e ha he
      have h1 : (j, a) ∈ Sample.e2.auctions.l := AMap.mem_iff.mpr ha
      have h2 : Sample.e2.auctions.l.all (fun x => match x.2.endTime with | some e => decide (e ≤ 1060000000000) | none => true) = true := by
        decide +kernel
      have := List.all_eq_true.mp h2 _ h1
      simp only [he] at this
      exact of_decide_eq_true this) (by decide +kernel) (by decide +kernel) (Sample.run_eq (by decide +kernel))
  exact Sample.sfail (c := Sample.ctx 1060000) (m := .endBlock) (s := Sample.e2) (by decide +kernel) ⟨_, h1⟩

/-- The general form of the defect: one due auction (within the limit) that cannot be settled makes the hook fail. -/
theorem C40_blocked {s : State} {ctx : Ctx} {sender : Addr} (hr : Reach p me s) (ht : ctx.time < 2^64) {k : Key} {a : Auction} {e : Nat}
    (ha : s.auctions.get? k = some a) (he : a.endTime = some e) (hle : sec e ≤ sec ctx.time) (hlim : dueCount s ctx.time ≤ s.config.maxSettle)
    (hlim2 : s.config.maxSettle < 2^32) (hbad : ∀ r, execute p ctx sender [] (.settle k.1 k.2) s ≠ .ok r) (r : State × List Msg) :
    sudo p ctx .endBlock s ≠ .ok r := by
  intro h
  obtain ⟨s', ms⟩ := r
  have hw := hr.wf
  have ht' : ctx.time ≤ U64MAX := Nat.le_of_lt_succ ht
  have hst := due_stored (ctx := ctx) hw
  cases sudo_eff h with
  | stop earliest s1 _ _ _ hb =>
    obtain ⟨x, hx1, hx2⟩ := (due_iff (ctx := ctx) hw ha he).mpr hle
    have hin : x.2 ∈ dueAuctions ctx s := by
      rw [due_eq, List.take_of_length_le (by rw [allDue_length ht', Nat.mod_eq_of_lt hlim2]; exact hlim)]
      exact List.mem_map_of_mem hx1
    have hxa := hst.1 _ hin
    rw [hx2, ha] at hxa
    cases hxa
    obtain ⟨t, t', m1, x1, _⟩ := hb.mem hst _ hin
    obtain ⟨s2, h2⟩ := x1.move s
    obtain ⟨r, hr'⟩ := (settleable_iff (sender := sender) ha (by have := (hw.auctions _ _ ha).valid; have hk := (hw.auctions _ _ ha).key; rw [← hk]; exact this)).mpr ⟨s2, m1, h2⟩
    exact hbad r hr'

example := C40_blocked (sender := Sample.bob) Sample.re2 (ctx := Sample.ctx 1060000) (by decide) (k := (Sample.evil, [50]))
  (a := ⟨Sample.evil, [50], Sample.alice, ⟨Sample.ust, 100⟩, 60, some 1060000000000, none, some ⟨⟨Sample.ust, 100⟩, Sample.bob⟩,
    some 1000000000000⟩) (e := 1060000000000) (by decide +kernel) rfl (by decide) (by decide +kernel) (by decide +kernel)
  (fun r h => by
    have h2 : Sample.ok (Sample.ctx 1060000) Sample.bob [] (.settle Sample.evil [50]) Sample.e2 = false := by decide +kernel
    unfold Sample.ok at h2
    rw [h] at h2; cases h2)

/-- Part that holds: settling by a call does not depend on other auctions; it works in any store with the same auction,
configuration and windows. -/
theorem C40_partial {s t s1 : State} {ctx : Ctx} {sender : Addr} {k : Key} {m1 : List Msg}
    (hk : s.auctions.get? k = t.auctions.get? k) (hc : s.config = t.config) (hws : s.windows = t.windows)
    (h : execute p ctx sender [] (.settle k.1 k.2) s = .ok (s1, m1)) :
    ∃ t1, execute p ctx sender [] (.settle k.1 k.2) t = .ok (t1, m1) := by
  cases execute_eff h with
  | settle _ _ y _ _ hv hf hy hs =>
    obtain ⟨t1, ht⟩ := hs.move t
    rw [show (k.1, k.2) = k from rfl] at hy
    refine ⟨t1, ?_⟩
    have := settle_of_eff (ms := []) ht
    rw [List.nil_append, hc, hws] at this
    rw [← this]
    rw [hk] at hy
    unfold execute executeSettle
    simp only [addrValidate, hv, if_true, ok_bind, nonpayable, ensure, orErr]
    rw [show (k.1, k.2) = k from rfl, hy]
    exact ok_bind _ _

example : Sample.ok (Sample.ctx 1060000) Sample.bob [] (.settle Sample.coll Sample.tok) Sample.e2 = true := by decide +kernel

/-! ### C66 -/

/-- If the configured limit covers all due auctions and there is no halt window, then a successful end-block call
settles every ended auction. -/
def C66_statement : Prop :=
  ∀ (p : Params) (me : Addr) (s s' : State) (ctx : Ctx) (msgs : List Msg), LibOk p.lib → Reach p me s → ctx.time < 2^64 →
    s.config.maxSettle < 2^64 → dueCount s ctx.time ≤ s.config.maxSettle → s.windows = [] → sudo p ctx .endBlock s = .ok (s', msgs) →
    ∀ k, EndedBy s k ctx.time → s'.auctions.get? k = none

/-- a limit of 2^32 -/
def Sample.u1 : State := (Sample.srun (Sample.ctx 1040500) (.updateParams { maxSettle := some (2^32) }) Sample.s4).1
theorem Sample.ru1 : Reach Sample.P Sample.self Sample.u1 := Sample.snext Sample.r4 (by decide +kernel) rfl

/-- The code violates it: the limit is truncated to 32 bits. -/
theorem C66_violated : ¬ C66_statement := by
  intro h
  have := h Sample.P Sample.self Sample.u1 _ (Sample.ctx 1080000) _ Sample.libOk Sample.ru1 (by decide) (by decide +kernel) (by decide +kernel)
    (by decide +kernel) (Sample.srun_eq (c := Sample.ctx 1080000) (m := .endBlock) (by decide +kernel)) (Sample.coll, Sample.tok)
    ⟨⟨Sample.coll, Sample.tok, Sample.alice, ⟨Sample.ust, 100⟩, 60, some 1070500000000, none, some ⟨⟨Sample.ust, 120⟩, Sample.carol⟩,
      some 1000000000000⟩, 1070500000000, by decide +kernel, rfl, by decide⟩
  revert this
  decide +kernel

/-- Part that holds: it does for limits below 2^32. -/
theorem C66_partial {s s' : State} {ctx : Ctx} {msgs : List Msg} (hr : Reach p me s) (ht : ctx.time < 2^64)
    (hlim2 : s.config.maxSettle < 2^32) (hlim : dueCount s ctx.time ≤ s.config.maxSettle) (hws : s.windows = [])
    (h : sudo p ctx .endBlock s = .ok (s', msgs)) {k : Key} (hk : EndedBy s k ctx.time) : s'.auctions.get? k = none := by
  have hw := hr.wf
  have ht' : ctx.time ≤ U64MAX := Nat.le_of_lt_succ ht
  have hst := due_stored (ctx := ctx) hw
  obtain ⟨a, e, ha, he, hle⟩ := hk
  cases sudo_eff h with
  | stop earliest s1 _ _ _ hb =>
    obtain ⟨x, hx1, hx2⟩ := (due_iff (ctx := ctx) hw ha he).mpr (secs_mono hle)
    have hin : x.2 ∈ dueAuctions ctx s := by
      rw [due_eq, List.take_of_length_le (by rw [allDue_length ht', Nat.mod_eq_of_lt hlim2]; exact hlim)]
      exact List.mem_map_of_mem hx1
    obtain ⟨t, t', m1, x1, _, x3, _⟩ := hb.mem hst _ hin
    show s1.auctions.get? k = none
    rw [← hx2, x3]
    cases x1 with
    | postponed e e' he hle hin => rw [hws] at hin; cases hin
    | sold => simp

example : Sample.sok (Sample.ctx 1080000) .endBlock Sample.s4 = true ∧ dueCount Sample.s4 1080000000000 ≤ Sample.s4.config.maxSettle ∧
    Sample.s4.windows = [] := by decide +kernel

/-! ### C36, example in a halt window -/

namespace Sample
def sat_ (w : World State) (m : Sudo) : World State := { w with st := (srun (M.ctx w (qw w)) m w.st).1 }
theorem scall {w : World State} (hr : Run P self hon (w, [])) {m : Sudo} (hs : sok (M.ctx w (qw w)) m w.st = true)
    (hm : (srun (M.ctx w (qw w)) m w.st).2 = []) : Run P self hon (sat_ w m, []) := by
  have h1 := Sys.Step.sudo (S := M) w m (qw w) (srun (M.ctx w (qw w)) m w.st).1
    (srun (M.ctx w (qw w)) m w.st).2 (fun _ _ _ => rfl) (srun_eq hs)
  rw [hm] at h1
  exact Spec.Run.step hr h1
def w7 : World State := sat_ w4 .beginBlock
theorem run7 : Run P self hon (w7, []) := scall run4 (by decide +kernel) (by decide +kernel)
def w8 : World State := { w7 with time := 1100000000000, height := 8 }
theorem run8 : Run P self hon (w8, []) :=
  Spec.Run.step run7 (Sys.Step.block (S := M) w7 _ _ (by decide +kernel) (by decide +kernel))
def w9 : World State := sat_ w8 .beginBlock
theorem run9 : Run P self hon (w9, []) := scall run8 (by decide +kernel) (by decide +kernel)
end Sample

example := C36_postpone Sample.run9 (coll := Sample.coll) (tok := Sample.tok)
  (a := ⟨Sample.coll, Sample.tok, Sample.alice, ⟨Sample.ust, 100⟩, 60, some 1060000000000, none, some ⟨⟨Sample.ust, 100⟩, Sample.bob⟩,
    some 1000000000000⟩) (e := 1060000000000) (by decide +kernel) rfl (by decide +kernel)
  ⟨1000, 1150⟩ (by decide +kernel) (by decide) (by decide) (by decide +kernel) (Sample.qw Sample.w9) (fun _ _ _ => rfl) Sample.carol (by decide)

end Verif.Auction

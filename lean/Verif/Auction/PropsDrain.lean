/-
Reserve auction: how long an ended auction can wait for the end-block hook (C121).
-/
import Verif.Auction.PropsHooks

namespace Verif.Auction
open Verif Spec

section
variable {p : Params} {me : Addr}

namespace Spec

/-- 1 for the end-block hook. -/
def endHook : Sudo → Nat
  | .endBlock => 1
  | _ => 0

/-- Histories in which every step is later than the second of `T` and the end-block hook may settle at least `L` auctions
whenever it runs; `n` counts these runs. -/
inductive Blocks (p : Params) (self : Addr) (T L : Nat) (s0 : State) : Nat → State → Prop where
  | refl : Blocks p self T L s0 0 s0
  | call {n : Nat} {s s' : State} {ctx : Ctx} {sender : Addr} {funds : List Coin} {m : Exec} {msgs : List Msg}
      (h : Blocks p self T L s0 n s) (ht : sec T < sec ctx.time) (hself : ctx.self = self) (hne : sender ≠ self)
      (hx : execute p ctx sender funds m s = .ok (s', msgs)) : Blocks p self T L s0 n s'
  | sudo {n : Nat} {s s' : State} {ctx : Ctx} {m : Sudo} {msgs : List Msg}
      (h : Blocks p self T L s0 n s) (ht : sec T < sec ctx.time) (hmax : ctx.time < 2^64) (hself : ctx.self = self)
      (hlim : m = .endBlock → L ≤ s.config.maxSettle ∧ s.config.maxSettle < 2^32)
      (hx : Auction.sudo p ctx m s = .ok (s', msgs)) : Blocks p self T L s0 (n + endHook m) s'

end Spec

/-! ### Counting -/

/-- 1 if the auction ends in or before the second of `T`. -/
def late (T : Nat) (a : Auction) : Nat :=
  match a.endTime with
  | some e => if sec e ≤ sec T then 1 else 0
  | none => 0

theorem late_some {T e : Nat} {a : Auction} (h : a.endTime = some e) : late T a = if sec e ≤ sec T then 1 else 0 := by
  unfold late; rw [h]

theorem late_none {T : Nat} {a : Auction} (h : a.endTime = none) : late T a = 0 := by unfold late; rw [h]

theorem late_after {T t e : Nat} {a : Auction} (ht : sec T < sec t) (hle : t ≤ e) (h : a.endTime = some e) : late T a = 0 := by
  have : sec t ≤ sec e := Nat.div_le_div_right hle
  rw [late_some h, if_neg (by omega)]

def total (T : Nat) : List Auction → Nat
  | [] => 0
  | a :: l => late T a + total T l

theorem late_le (T : Nat) (a : Auction) : late T a ≤ 1 := by
  unfold late; split
  · split <;> omega
  · omega

theorem total_count (T : Nat) (q : Auction → Bool) (hq : ∀ a, q a = true ↔ late T a = 1) :
    ∀ l : List Auction, total T l = l.countP q
  | [] => rfl
  | a :: l => by
    rw [total, total_count T q hq l, List.countP_cons]
    have h1 := late_le T a
    have h2 := hq a
    by_cases h : q a = true
    · rw [if_pos h, h2.mp h]; omega
    · have : late T a ≠ 1 := fun e => h (h2.mpr e)
      rw [if_neg h]; omega

theorem dueCount_sum (s : State) (T : Nat) : dueCount s T = s.auctions.sum (late T) := by
  have h : ∀ l : List Auction, (l.map (late T)).sum = total T l := by
    intro l; induction l with
    | nil => rfl
    | cons a l ih => rw [List.map_cons, List.sum_cons, ih, total]
  unfold dueCount AMap.sum
  rw [← List.countP_eq_length_filter, h, total_count]
  intro a
  unfold late
  cases a.endTime with
  | none => simp
  | some e => by_cases h : sec e ≤ sec T <;> simp [h]

/-- What an entry keeps when it is taken from a list in which the late ones come first. -/
theorem total_take {T : Nat} : ∀ {l : List Auction} (m : Nat), l.Pairwise (fun a b => late T b ≤ late T a) →
    Nat.min m (total T l) ≤ total T (l.take m)
  | [], m, _ => by simp [total]
  | a :: l, 0, _ => by simp
  | a :: l, m + 1, h => by
    rw [List.pairwise_cons] at h
    have ih := total_take m h.2
    have h1 := late_le T a
    rw [List.take_succ_cons, total, total]
    by_cases h0 : late T a = 0
    · have hz : total T l = 0 := by
        have hz : ∀ b ∈ l, late T b = 0 := fun b hb => Nat.le_zero.mp (h0 ▸ h.1 b hb)
        clear ih h
        induction l with
        | nil => rfl
        | cons b l ih =>
          rw [total, hz b List.mem_cons_self, ih (fun c hc => hz c (List.mem_cons_of_mem _ hc))]
      rw [hz, h0]
      exact Nat.le_trans (Nat.min_le_right _ _) (Nat.zero_le _)
    · have h2 : late T a = 1 := by omega
      rw [h2]
      have e : Nat.min (m + 1) (1 + total T l) = 1 + Nat.min m (total T l) := by
        simp only [Nat.min_def]; split <;> split <;> omega
      rw [e]; omega

/-! ### One step -/

theorem Settled.late {ctx : Ctx} {a : Auction} {c : Config} {ws : List HaltWindow} {s s' : State} {ms : List Msg} {T : Nat}
    (h : Settled p ctx a c ws s s' ms) (ha : s.auctions.get? a.key = some a) (ht : sec T < sec ctx.time) :
    s'.auctions.sum (late T) + Auction.late T a = s.auctions.sum (Verif.Auction.late T) := by
  cases h with
  | postponed e e' he hle hin hov he' =>
    have h1 := AMap.sum_insert_old { a with endTime := some e' } (Verif.Auction.late T) ha
    have h2 : Verif.Auction.late T { a with endTime := some e' } = 0 :=
      late_after (e := e') ht (by rw [he']; exact Nat.le_add_right _ _) rfl
    rw [h2] at h1
    exact h1
  | sold => exact AMap.sum_erase_of_get? _ ha

theorem Batch.late {ctx : Ctx} {c : Config} {ws : List HaltWindow} {as : List Auction} {s s' : State} {ms : List Msg} {T : Nat}
    (h : Batch p ctx c ws as s s' ms) (ht : sec T < sec ctx.time) :
    Stored s as → s'.auctions.sum (late T) + total T as = s.auctions.sum (Verif.Auction.late T) := by
  induction h with
  | nil => intro _; rfl
  | cons h1 _ ih =>
    intro hst
    have a1 := h1.late (hst.1 _ List.mem_cons_self) ht
    have a2 := ih (hst.tail h1)
    rw [total]; omega

theorem total_due {ctx : Ctx} {s : State} {T : Nat} (ht : sec T < sec ctx.time) (hmax : ctx.time ≤ U64MAX) :
    total T ((allDue ctx s).map Prod.snd) = dueCount s T := by
  have hq : ∀ a, (late T a == 1) = true ↔ late T a = 1 := fun a => by simp
  have hs : dueCount s T = total T s.auctions.vals := by
    rw [dueCount_sum]; unfold AMap.sum
    generalize s.auctions.vals = l
    induction l with
    | nil => rfl
    | cons a l ih => rw [List.map_cons, List.sum_cons, ih, total]
  rw [hs, total_count T _ hq, total_count T _ hq]
  unfold allDue scan
  simp only [Bool.false_eq_true, if_false]
  rw [List.countP_map, List.countP_filter,
    (sortBy_perm (le := fun a b : (Nat × Bytes) × Auction => pkLe a.1 b.1) (endEntries s)).countP_eq]
  unfold endEntries AMap.vals
  rw [List.countP_map, List.countP_map]
  apply List.countP_congr
  rintro ⟨k, a⟩ _
  simp only [Function.comp, okMin, Bool.true_and, Bool.and_eq_true, beq_iff_eq]
  rw [okMax_end, endKey_le hmax]
  cases he : a.endTime with
  | none => simp [late_none he]
  | some e =>
    rw [late_some he]
    simp only [decide_eq_true_eq]
    constructor
    · exact fun h => h.1
    · intro h
      refine ⟨h, ?_⟩
      split at h
      · omega
      · cases h

theorem due_first {ctx : Ctx} {s : State} {T : Nat} (hmax : ctx.time ≤ U64MAX) :
    ((allDue ctx s).map Prod.snd).Pairwise (fun a b => late T b ≤ late T a) := by
  have hsort : (allDue ctx s).Pairwise (fun a b => pkLe a.1 b.1 = true) := scan_sorted pkLe_total pkLe_trans _ _ _
  rw [List.pairwise_map]
  refine hsort.imp_of_mem ?_
  intro x y hx hy hxy
  obtain ⟨k1, _, i2, i3⟩ := mem_allDue.mp hx
  obtain ⟨k2, _, j2, j3⟩ := mem_allDue.mp hy
  have hle : x.2.endKey ≤ y.2.endKey := by
    rw [i2, j2] at hxy
    exact pkLe_fst hxy
  have hend : ∀ a : Auction, a.endKey ≤ secs ctx.time → ∃ e, a.endTime = some e ∧ a.endKey = sec e := by
    intro a ha
    have := (endKey_le hmax).mp ha
    cases he : a.endTime with
    | none => rw [he] at this; cases this
    | some e => exact ⟨e, rfl, by unfold Auction.endKey; rw [he]; exact secs_eq e⟩
  obtain ⟨e, he, he'⟩ := hend _ i3
  obtain ⟨f, hf, hf'⟩ := hend _ j3
  rw [late_some he, late_some hf]
  split
  · rw [if_pos (by omega)]; exact Nat.le_refl 1
  · exact Nat.zero_le _

theorem exec_late {ctx : Ctx} {sender : Addr} {funds : List Coin} {m : Exec} {s s' : State} {msgs : List Msg} {T : Nat}
    (hw : WF p me s) (ht : sec T < sec ctx.time) (e : Eff p ctx sender funds s m s' msgs) : dueCount s' T ≤ dueCount s T := by
  rw [dueCount_sum, dueCount_sum]
  have hin : ∀ {k : Key} {a a' : Auction}, s.auctions.get? k = some a → late T a' ≤ late T a →
      (s.auctions.insert a.key a').sum (late T) ≤ s.auctions.sum (late T) := by
    intro k a a' ha hle
    have := AMap.sum_insert_old a' (late T) (show s.auctions.get? a.key = some a by rw [(hw.auctions _ _ ha).key]; exact ha)
    omega
  cases e with
  | create coll tok r dur rec min hv hrec hown happ hno =>
    have := AMap.sum_insert_new (⟨coll, tok, sender, r, dur, none, rec, none, none⟩ : Auction) (late T) hno
    rw [late_none (by rfl)] at this
    exact Nat.le_of_eq this
  | reserve coll tok r a min hv hf ha => exact hin ha (Nat.le_refl _)
  | cancel coll tok a hv hf ha =>
    have := AMap.sum_erase_of_get? (late T) (show s.auctions.get? a.key = some a by rw [(hw.auctions _ _ ha).key]; exact ha)
    show (s.auctions.erase a.key).sum (late T) ≤ _
    omega
  | bid1 coll tok a n m e hv ha hs hfunds hpos hm hge hend hb hov he =>
    refine hin ha ?_
    rw [late_after (e := e) ht (by rw [he]; exact Nat.le_add_right _ _) (by rfl)]
    exact Nat.zero_le _
  | bid2 coll tok a n m f e e' h hv ha hs hfunds hpos hm hge hend hb hh hz he he' =>
    refine hin ha ?_
    rw [late_after (e := e') ht _ (by rfl)]
    · exact Nat.zero_le _
    · have h1 := extend_le hend he'
      refine Nat.le_trans ?_ h1
      rw [secs_eq, secs_eq] at hend
      exact Nat.le_of_lt (Nat.lt_of_not_le fun hc => by have : sec e ≤ sec ctx.time := Nat.div_le_div_right hc; omega)
  | settle coll tok a _ _ hv hf ha h =>
    have := h.late (T := T) (by rw [(hw.auctions _ _ ha).key]; exact ha) ht
    omega

theorem sudo_late {ctx : Ctx} {m : Sudo} {s s' : State} {msgs : List Msg} {T L : Nat}
    (hw : WF p me s) (ht : sec T < sec ctx.time) (hmax : ctx.time < 2^64)
    (hlim : m = .endBlock → L ≤ s.config.maxSettle ∧ s.config.maxSettle < 2^32) (e : SEff p ctx s m s' msgs) :
    dueCount s' T ≤ dueCount s T - endHook m * L := by
  cases e with
  | stop earliest s1 _ _ _ hb =>
    obtain ⟨h1, h2⟩ := hlim rfl
    have ht' : ctx.time ≤ U64MAX := Nat.le_of_lt_succ hmax
    have h3 := hb.late ht (due_stored hw)
    rw [due_eq, List.map_take, Nat.mod_eq_of_lt h2] at h3
    have h4 := total_take (T := T) s.config.maxSettle (due_first (ctx := ctx) (s := s) ht')
    rw [total_due ht ht'] at h4
    rw [← dueCount_sum s] at h3
    have h5 : dueCount { s1 with windows := dropStale s.windows earliest } T = s1.auctions.sum (late T) := dueCount_sum _ _
    rw [h5]
    simp only [endHook, Nat.one_mul]
    have h6 : Nat.min s.config.maxSettle (dueCount s T) = if s.config.maxSettle ≤ dueCount s T then s.config.maxSettle else dueCount s T := rfl
    rw [h6] at h4
    split at h4 <;> omega
  | begin => simp only [endHook, Nat.zero_mul, Nat.sub_zero]; exact Nat.le_refl _
  | params => simp only [endHook, Nat.zero_mul, Nat.sub_zero]; exact Nat.le_refl _
  | setMin => simp only [endHook, Nat.zero_mul, Nat.sub_zero]; exact Nat.le_refl _
  | unsetMin => simp only [endHook, Nat.zero_mul, Nat.sub_zero]; exact Nat.le_refl _

/-! ### C121 -/

/-- The number of auctions that ended in or before the second of `T` and still wait falls by `L` with every run of the
end-block hook, whatever else happens in between. -/
theorem C121_backlog {s0 s : State} {T L n : Nat} (hr : Reach p me s0) (h : Blocks p me T L s0 n s) :
    Reach p me s ∧ dueCount s T ≤ dueCount s0 T - n * L := by
  induction h with
  | refl => exact ⟨hr, by omega⟩
  | call _ ht hself hne hx ih =>
    exact ⟨ih.1.step (.call hself hne hx), Nat.le_trans (exec_late ih.1.wf ht (execute_eff hx)) ih.2⟩
  | sudo _ ht hmax hself hlim hx ih =>
    refine ⟨ih.1.step (.sudo hself hx), ?_⟩
    have := sudo_late ih.1.wf ht hmax hlim (sudo_eff hx)
    rw [Nat.add_mul]; omega

/-- An auction waits at most as many runs of the end-block hook as are needed for the auctions that ended in or before the
same second: after them no token has an auction with an end in or before that second. With `e` the end of an open auction:
it is gone (sold), or it has been postponed to a later second. -/
theorem C121_turn {s0 s : State} {L n e : Nat} (hr : Reach p me s0) (hn : dueCount s0 e ≤ n * L)
    (h : Blocks p me e L s0 n s) :
    ∀ k b f, s.auctions.get? k = some b → b.endTime = some f → sec e < sec f := by
  intro k b f hb hf
  obtain ⟨_, h0⟩ := C121_backlog hr h
  have h1 : dueCount s e = 0 := by omega
  refine Nat.lt_of_not_le fun hle => ?_
  have h2 := AMap.sum_erase_of_get? (late e) hb
  rw [← dueCount_sum, h1, late_some hf, if_pos hle] at h2
  omega

end

/-- Non-vacuous: three auctions have ended, the limit is two; the third is sold by the second run. In between the seller
of the first opens a new auction. -/
def Sample.d1 : State := (Sample.srun (Sample.ctx 1061000) .endBlock Sample.t4).1
def Sample.d2 : State := (Sample.run (Sample.ctx 1062000 (some Sample.alice)) Sample.alice [⟨Sample.ust, 5⟩] (.create Sample.coll [50] ⟨Sample.ust, 100⟩ 20 none) Sample.d1).1
def Sample.d3 : State := (Sample.srun (Sample.ctx 1063000) .endBlock Sample.d2).1

theorem Sample.bcall {T L n : Nat} {s0 s : State} {c : Ctx} {sender : Addr} {funds : List Coin} {m : Exec}
    (h : Blocks Sample.P Sample.self T L s0 n s) (hok : Sample.ok c sender funds m s = true) (ht : sec T < sec c.time)
    (hs : c.self = Sample.self) (hne : sender ≠ Sample.self) :
    Blocks Sample.P Sample.self T L s0 n (Sample.run c sender funds m s).1 :=
  .call h ht hs hne (Sample.run_eq hok)

theorem Sample.bend {T L n : Nat} {s0 s : State} {c : Ctx} (h : Blocks Sample.P Sample.self T L s0 n s)
    (hok : Sample.sok c .endBlock s = true) (ht : sec T < sec c.time) (hm : c.time < 2^64) (hs : c.self = Sample.self)
    (hl : L ≤ s.config.maxSettle ∧ s.config.maxSettle < 2^32) :
    Blocks Sample.P Sample.self T L s0 (n + 1) (Sample.srun c .endBlock s).1 :=
  .sudo h ht hm hs (fun _ => hl) (Sample.srun_eq hok)

theorem Sample.drain : Blocks Sample.P Sample.self 1060000000000 2 Sample.t4 2 Sample.d3 :=
  have h0 : Sample.sok (Sample.ctx 1061000) .endBlock Sample.t4 = true := by decide +kernel
  have h1 : Sample.ok (Sample.ctx 1062000 (some Sample.alice)) Sample.alice [⟨Sample.ust, 5⟩]
    (.create Sample.coll [50] ⟨Sample.ust, 100⟩ 20 none) Sample.d1 = true := by decide +kernel
  have h2 : Sample.sok (Sample.ctx 1063000) .endBlock Sample.d2 = true := by decide +kernel
  have l0 : 2 ≤ Sample.t4.config.maxSettle ∧ Sample.t4.config.maxSettle < 2^32 := by decide +kernel
  have l2 : 2 ≤ Sample.d2.config.maxSettle ∧ Sample.d2.config.maxSettle < 2^32 := by decide +kernel
  Sample.bend (Sample.bcall (Sample.bend .refl h0 (by decide +kernel) (by decide +kernel) rfl l0) h1 (by decide +kernel) rfl (by decide +kernel))
    h2 (by decide +kernel) (by decide +kernel) rfl l2

example : dueCount Sample.t4 1060000000000 = 3 ∧ dueCount Sample.d1 1060000000000 = 1 ∧ dueCount Sample.d3 1060000000000 = 0 ∧
    Sample.d3.auctions.get? (Sample.coll, [50]) ≠ none := by decide +kernel

end Verif.Auction

/-
Reserve auctions: what the query by end time shows first is what the end-block hook takes up: C162.
-/
import Verif.Auction.PropsGovern
import Verif.Auction.Entry
import Verif.Base.KvBounds

namespace Verif.Auction
open Verif Spec

section
variable {p : Params} {me : Addr}

/-- If entries before a selected one are selected too, the selected ones come first. -/
theorem filter_prefix {α : Type} {r : α → α → Prop} {q : α → Bool} : ∀ {l : List α}, l.Pairwise r →
    (∀ x y, r x y → q y = true → q x = true) → ∃ t, l = l.filter q ++ t ∧ ∀ x ∈ t, q x = false
  | [], _, _ => ⟨[], rfl, fun x h => (by cases h)⟩
  | x :: l, hl, hq => by
    rw [List.pairwise_cons] at hl
    by_cases hx : q x = true
    · obtain ⟨t, h1, h2⟩ := filter_prefix hl.2 hq
      exact ⟨t, by rw [List.filter_cons_of_pos hx, List.cons_append, ← h1], h2⟩
    · have hn : ∀ y ∈ l, q y = false := fun y hy => Bool.eq_false_iff.mpr fun h => hx (hq x y (hl.1 y hy) h)
      refine ⟨x :: l, ?_, ?_⟩
      · rw [List.filter_cons_of_neg hx, List.filter_eq_nil_iff.mpr (fun y hy => by rw [hn y hy]; decide)]; rfl
      · intro y hy
        rcases List.mem_cons.mp hy with rfl | hy
        · exact Bool.eq_false_iff.mpr hx
        · exact hn y hy

/-- The order of the query by end time. -/
def shownBefore (a b : Auction) : Prop := endBefore (endSec a, keyOff a) (endSec b, keyOff b)

theorem shownBefore_irr (a : Auction) : ¬ shownBefore a a := by
  intro h
  have := ltK_end.mpr h
  rw [ltK_irrefl] at this
  cases this

theorem shownBefore_asymm (a b : Auction) (h : shownBefore a b) : ¬ shownBefore b a := by
  intro h'
  have := ltK_asymm endLin.trans (ltK_end.mpr h)
  rw [ltK_end.mpr h'] at this
  cases this

/-- The auctions that are over, in the order of the hook, are in the order of the query. -/
theorem allDue_sorted {s : State} {ctx : Ctx} (hw : WF p me s) (ht : ctx.time < 2^64)
    (hshort : ∀ k a, s.auctions.get? k = some a → k.1.length < 65536) : ((allDue ctx s).map Prod.snd).Pairwise shownBefore := by
  have ht' : ctx.time ≤ U64MAX := Nat.le_of_lt_succ ht
  have hn : secs ctx.time < 2^64 - 1 := Nat.lt_of_le_of_lt (Nat.div_le_div_right ht') (by decide)
  have hsort : (allDue ctx s).Pairwise (fun a b => pkLe a.1 b.1 = true) := scan_sorted pkLe_total pkLe_trans _ _ _
  rw [List.pairwise_map]
  have hne : (allDue ctx s).Pairwise (fun a b => a.2.key ≠ b.2.key) := List.pairwise_map.mp (allDue_nodup hw)
  refine (hsort.and hne).imp_of_mem ?_
  rintro x y hx hy ⟨h1, h2⟩
  obtain ⟨k, i1, i2, i3⟩ := mem_allDue.mp hx
  obtain ⟨j, j1, j2, j3⟩ := mem_allDue.mp hy
  have e1 : keyOff x.2 = k := (hw.auctions _ _ i1).key
  have e2 : keyOff y.2 = j := (hw.auctions _ _ j1).key
  have f1 : x.2.endKey = endSec x.2 := by
    obtain ⟨e, he⟩ := Option.isSome_iff_exists.mp ((endKey_lt (hw.auctions _ _ i1)).mp (Nat.lt_of_le_of_lt i3 hn))
    exact endKey_some he
  have f2 : y.2.endKey = endSec y.2 := by
    obtain ⟨e, he⟩ := Option.isSome_iff_exists.mp ((endKey_lt (hw.auctions _ _ j1)).mp (Nat.lt_of_le_of_lt j3 hn))
    exact endKey_some he
  unfold shownBefore
  rw [← f1, ← f2, e1, e2, ← ltK_end, ltK_lin endLin]
  rw [i2, j2] at h1
  refine ⟨?_, fun e => h2 ?_⟩
  · rw [← h1]
    exact ((C85_key_order (hshort _ _ i1) (hshort _ _ j1)).2.2 _ _ (by omega) (by omega)).2.symm
  · exact e1.trans ((congrArg Prod.snd e).trans e2.symm)

/-- The end-block hook takes up the auctions that the query by end time shows first: one that is shown among the first as many as the
hook may take up, and is over, is settled or postponed; every other one that is shown stays as it is. -/
theorem C162_auction (hv : p.valid [] = false) {s s' : State} {ctx : Ctx} {msgs : List Msg} (hr : Reach p me s) (ht : ctx.time < 2^64)
    (hshort : ∀ k a, s.auctions.get? k = some a → k.1.length < 65536) {o : Option (Opts Key)} {l : List Auction}
    (hd : (o.getD {}).descending.getD false = false) (hs : (o.getD {}).startAfter = none)
    (hq : query p s (.auctionsByEndTime 0 o) = .ok (.auctions l))
    (h : sudo p ctx .endBlock s = .ok (s', msgs)) {i : Nat} {a : Auction} (hi : l[i]? = some a) :
    (i < s.config.maxSettle % 2^32 ∧ endSec a ≤ sec ctx.time →
      s'.auctions.get? (keyOff a) = none ∨
      s'.auctions.get? (keyOff a) = some { a with endTime := some (ctx.time + s.config.haltPostpone * 1000000000) }) ∧
    (¬ (i < s.config.maxSettle % 2^32 ∧ endSec a ≤ sec ctx.time) → s'.auctions.get? (keyOff a) = some a) := by
  have hw := hr.wf
  have ht' : ctx.time ≤ U64MAX := Nat.le_of_lt_succ ht
  have hn : secs ctx.time < 2^64 - 1 := Nat.lt_of_le_of_lt (Nat.div_le_div_right ht') (by decide)
  have hst := due_stored (ctx := ctx) hw
  simp only [query, Except.ok.injEq, Answer.auctions.injEq] at hq
  rw [hd, hs] at hq
  obtain ⟨all, h1, h2, h3, h4⟩ := C84_partial hv hr 0 none false (o.getD {}).limit (by decide) (fun e => by cases e)
  have h5 := h4 1
  rw [pages] at h5
  simp only [pages, hq, List.append_nil] at h5
  have h6 : l = all.take (1 * pageSize (o.getD {}).limit) := by
    rw [← h5]
    cases l.getLast? <;> rfl
  have hall : all[i]? = some a := by
    rw [h6, List.getElem?_take] at hi
    split at hi
    · exact hi
    · cases hi
  have hmem : a ∈ all := List.mem_of_getElem? hall
  have hover : (allDue ctx s).map Prod.snd = all.filter (fun a => decide (endSec a ≤ sec ctx.time)) := by
    refine Kv.eq_of_sorted shownBefore_irr shownBefore_asymm (allDue_sorted hw ht hshort) (h3.filter _) fun x => ?_
    rw [List.mem_filter, h1, List.mem_map, decide_eq_true_eq]
    constructor
    · rintro ⟨e, he, rfl⟩
      obtain ⟨k, i1, i2, i3⟩ := mem_allDue.mp he
      obtain ⟨t, he'⟩ := Option.isSome_iff_exists.mp ((endKey_lt (hw.auctions _ _ i1)).mp (Nat.lt_of_le_of_lt i3 hn))
      refine ⟨⟨⟨⟨k, i1⟩, by rw [he']; simp⟩, ?_⟩, by rw [← endKey_some he']; exact i3⟩
      rintro o ho
      cases ho
      exact Nat.zero_le _
    · rintro ⟨⟨⟨⟨k, i1⟩, hne⟩, _⟩, hle⟩
      cases he' : x.endTime with
      | none => exact absurd he' hne
      | some t => exact ⟨((x.endKey, pkBytes k), x), mem_allDue.mpr ⟨k, i1, rfl, by rw [endKey_some he']; exact hle⟩, rfl⟩
  obtain ⟨rest, h7, h8⟩ := filter_prefix (q := fun a => decide (endSec a ≤ sec ctx.time)) h3 (fun x y hxy hy => by
    have h9 : endSec y ≤ sec ctx.time := of_decide_eq_true hy
    refine decide_eq_true ?_
    rcases hxy with hlt | ⟨heq, _⟩
    · exact Nat.le_trans (Nat.le_of_lt hlt) h9
    · exact Nat.le_trans (Nat.le_of_eq heq) h9)
  rw [← hover] at h7
  have hdue : dueAuctions ctx s = ((allDue ctx s).map Prod.snd).take (s.config.maxSettle % 2^32) := by rw [due_eq, List.map_take]
  have overF : ∀ {x : Auction}, x ∈ (allDue ctx s).map Prod.snd → endSec x ≤ sec ctx.time := by
    intro x hx
    rw [hover] at hx
    exact of_decide_eq_true (List.mem_filter.mp hx).2
  generalize (allDue ctx s).map Prod.snd = F at h7 hdue overF
  obtain ⟨⟨k, hk⟩, _⟩ := ((h1 a).mp hmem).1
  have hkey : a.key = k := (hw.auctions _ _ hk).key
  have hko : keyOff a = k := hkey
  have hin : a ∈ dueAuctions ctx s ↔ i < s.config.maxSettle % 2^32 ∧ endSec a ≤ sec ctx.time := by
    rw [hdue]
    constructor
    · intro hm
      obtain ⟨j, hj⟩ := List.mem_iff_getElem?.mp hm
      rw [List.getElem?_take] at hj
      split at hj
      · rename_i hjm
        have hjl : j < F.length := (List.getElem?_eq_some_iff.mp hj).1
        have hj' : all[j]? = some a := by rw [h7, List.getElem?_append_left hjl]; exact hj
        have hij : j = i := (List.getElem?_inj (by rw [h7, List.length_append]; omega) h2).mp (hj'.trans hall.symm)
        subst hij
        have haF : a ∈ F := List.mem_of_getElem? hj
        exact ⟨hjm, overF haF⟩
      · cases hj
    · rintro ⟨h9, h10⟩
      have hlt : i < F.length := by
        refine Nat.lt_of_not_le fun hge => ?_
        rw [h7, List.getElem?_append_right hge] at hall
        have := h8 a (List.mem_of_getElem? hall)
        rw [decide_eq_true h10] at this
        cases this
      rw [h7, List.getElem?_append_left hlt] at hall
      refine List.mem_iff_getElem?.mpr ⟨i, ?_⟩
      rw [List.getElem?_take, if_pos h9]
      exact hall
  rw [hko]
  cases sudo_eff h with
  | stop earliest s1 _ _ _ hb =>
    refine ⟨fun g => ?_, fun g => ?_⟩
    · have hb1 := hin.mpr g
      obtain ⟨t, t', m1, x1, x2, x3, _⟩ := hb.mem hst a hb1
      rw [hkey] at x3
      have x3' := x3
      cases x1 with
      | postponed e e' he hle _ _ he' => right; subst he'; rw [← hkey] at x3' ⊢; exact x3'.trans (AMap.get?_insert_self _ _ _)
      | sold e hb roy pay he hle => left; rw [← hkey] at x3' ⊢; exact x3'.trans (AMap.get?_erase_self _ _)
    · refine (hb.frame.2.2.2.2 k (fun b hb' e => ?_)).trans hk
      have h9 := hst.1 b hb'
      rw [e, hk] at h9
      cases h9
      exact g (hin.mp hb')

end

namespace Sample
/-- three auctions are shown, all of them over; the hook may take up two -/
theorem shown4 : query P t4 (.auctionsByEndTime 0 none) = .ok (.auctions (queryAuctionsByEndTime t4 0 false none none)) := rfl
theorem stop4 : sudo P (ctx 1070000) .endBlock t4 = .ok (srun (ctx 1070000) .endBlock t4) := srun_eq (by decide +kernel)
example : (queryAuctionsByEndTime t4 0 false none none).map (fun a => (a.endTime, keyOff a)) =
    [(some 1020000000000, (coll, [50])), (some 1040000000000, (coll, [51])), (some 1060000000000, (coll, [49]))] ∧
    t4.config.maxSettle = 2 := by decide +kernel
example := (C162_auction rfl rt4 (by decide) short4 rfl rfl shown4 stop4 (i := 1) (a := ((queryAuctionsByEndTime t4 0 false none none)[1]?).get
  (by decide +kernel)) (by simp)).1 ⟨by decide +kernel, by decide +kernel⟩
example := (C162_auction rfl rt4 (by decide) short4 rfl rfl shown4 stop4 (i := 2) (a := ((queryAuctionsByEndTime t4 0 false none none)[2]?).get
  (by decide +kernel)) (by simp)).2 (by decide +kernel)
end Sample

end Verif.Auction

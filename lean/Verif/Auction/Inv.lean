/- Invariants of reachable states and effect of settlements. Helper file, no properties. -/
import Verif.Auction.Eff
import Verif.Base.Custody

namespace Verif.Auction
open Verif Spec

variable {p : Params} {me : Addr}

theorem secs_eq (t : Nat) : secs t = sec t := rfl
theorem NS_pos : 0 < NS := by decide

theorem secs_mono {a b : Nat} (h : a ≤ b) : secs a ≤ secs b := Nat.div_le_div_right h
theorem secs_le (t : Nat) : secs t * NS ≤ t := Nat.div_mul_le_self t NS
theorem lt_secs (t : Nat) : t < (secs t + 1) * NS := by
  have := Nat.lt_mul_div_succ t NS_pos
  unfold secs; rw [Nat.mul_comm]; exact this
theorem secs_add (t n : Nat) : secs (t + n * NS) = secs t + n := Nat.add_mul_div_right t n NS_pos

/-- What is known of a stored auction. -/
structure Good (p : Params) (me : Addr) (k : Key) (a : Auction) : Prop where
  key : a.key = k
  valid : p.valid a.collection = true
  high : a.highBid = none ↔ a.endTime = none
  first : a.firstBid = none ↔ a.endTime = none
  coin : ∀ h, a.highBid = some h → h.coin.denom = a.reserve.denom ∧ 0 < h.coin.amount ∧ h.bidder ≠ a.seller ∧ h.bidder ≠ me
  seller : a.seller ≠ me
  endMax : ∀ e, a.endTime = some e → e ≤ U64MAX

structure WF (p : Params) (me : Addr) (s : State) : Prop where
  auctions : ∀ k a, s.auctions.get? k = some a → Good p me k a
  config : s.config.validate = .ok ()

theorem insert_good {s : State} (h : ∀ k a, s.auctions.get? k = some a → Good p me k a) {k : Key} {a : Auction} (ha : Good p me k a) :
    ∀ k' a', (s.auctions.insert k a).get? k' = some a' → Good p me k' a' := by
  intro k' a' h'
  rw [AMap.get?_insert] at h'
  split at h'
  case isTrue e => cases h'; subst e; exact ha
  · exact h k' a' h'

theorem erase_good {s : State} (h : ∀ k a, s.auctions.get? k = some a → Good p me k a) {k : Key} :
    ∀ k' a', (s.auctions.erase k).get? k' = some a' → Good p me k' a' := by
  intro k' a' h'
  rw [AMap.get?_erase] at h'
  split at h'
  · cases h'
  · exact h k' a' h'

/-! ### Settlements -/

section
variable {ctx : Ctx} {c : Config} {ws : List HaltWindow}

theorem Settled.frame {a : Auction} {s s' : State} {ms : List Msg} (h : Settled p ctx a c ws s s' ms) :
    s'.config = s.config ∧ s'.minReserve = s.minReserve ∧ s'.prevBlock = s.prevBlock ∧ s'.windows = s.windows ∧
    ∀ k, k ≠ a.key → s'.auctions.get? k = s.auctions.get? k := by
  cases h with
  | postponed =>
    refine ⟨rfl, rfl, rfl, rfl, ?_⟩
    intro k hk
    simp only [AMap.get?_insert]
    exact if_neg (fun e => hk e.symm)
  | sold =>
    refine ⟨rfl, rfl, rfl, rfl, ?_⟩
    intro k hk
    simp only [AMap.get?_erase]
    exact if_neg (fun e => hk e.symm)

theorem Settled.wf {a : Auction} {s s' : State} {ms : List Msg} (hw : WF p me s) (ha : s.auctions.get? a.key = some a)
    (h : Settled p ctx a c ws s s' ms) : WF p me s' := by
  refine ⟨?_, by rw [h.frame.1]; exact hw.config⟩
  have hg := hw.auctions _ _ ha
  cases h with
  | postponed e e' he hle hin hov he' =>
    refine insert_good hw.auctions ⟨rfl, hg.valid, ?_, ?_, hg.coin, hg.seller, ?_⟩
    · have := hg.high; rw [he] at this; simpa using this
    · have := hg.first; rw [he] at this; simpa using this
    · intro x hx; cases hx; exact hov
  | sold => exact erase_good hw.auctions

theorem Batch.frame {as : List Auction} {s s' : State} {ms : List Msg} (h : Batch p ctx c ws as s s' ms) :
    s'.config = s.config ∧ s'.minReserve = s.minReserve ∧ s'.prevBlock = s.prevBlock ∧ s'.windows = s.windows ∧
    ∀ k, (∀ a ∈ as, a.key ≠ k) → s'.auctions.get? k = s.auctions.get? k := by
  induction h with
  | nil => exact ⟨rfl, rfl, rfl, rfl, fun _ _ => rfl⟩
  | cons h1 _ ih =>
    obtain ⟨a1, a2, a3, a4, a5⟩ := h1.frame
    obtain ⟨b1, b2, b3, b4, b5⟩ := ih
    refine ⟨b1.trans a1, b2.trans a2, b3.trans a3, b4.trans a4, ?_⟩
    intro k hk
    rw [b5 k (fun a ha => hk a (List.mem_cons_of_mem _ ha)), a5 k (fun e => hk _ List.mem_cons_self e.symm)]

/-- The auctions of the list are stored, under different keys. -/
def Stored (s : State) (as : List Auction) : Prop :=
  (∀ a ∈ as, s.auctions.get? a.key = some a) ∧ (as.map Auction.key).Nodup

theorem Stored.tail {a : Auction} {as : List Auction} {s s' : State} {ms : List Msg} (h : Stored s (a :: as))
    (hs : Settled p ctx a c ws s s' ms) : Stored s' as := by
  obtain ⟨h1, h2⟩ := h
  rw [List.map_cons, List.nodup_cons] at h2
  refine ⟨?_, h2.2⟩
  intro b hb
  rw [hs.frame.2.2.2.2 b.key]
  · exact h1 b (List.mem_cons_of_mem _ hb)
  · intro e; exact h2.1 (e ▸ List.mem_map_of_mem hb)

theorem Batch.wf {as : List Auction} {s s' : State} {ms : List Msg} (h : Batch p ctx c ws as s s' ms) :
    WF p me s → Stored s as → WF p me s' := by
  induction h with
  | nil => exact fun h _ => h
  | cons h1 _ ih => exact fun hw hst => ih (h1.wf hw (hst.1 _ List.mem_cons_self)) (hst.tail h1)

/-- What a batch does to each of its auctions. -/
theorem Batch.mem {as : List Auction} {s s' : State} {ms : List Msg} (h : Batch p ctx c ws as s s' ms) :
    Stored s as → ∀ a ∈ as, ∃ s1 s1' m1, Settled p ctx a c ws s1 s1' m1 ∧ s1.auctions.get? a.key = some a ∧
      s'.auctions.get? a.key = s1'.auctions.get? a.key ∧ (∀ m ∈ m1, m ∈ ms) := by
  induction h with
  | nil => intro _ a ha; cases ha
  | @cons b as s s1 s' m1 m2 h1 h2 ih =>
    intro hst a ha
    rw [List.mem_cons] at ha
    rcases ha with rfl | ha
    · refine ⟨s, s1, m1, h1, hst.1 _ List.mem_cons_self, ?_, fun m hm => List.mem_append_left _ hm⟩
      apply h2.frame.2.2.2.2
      intro b hb e
      have := hst.2
      rw [List.map_cons, List.nodup_cons] at this
      exact this.1 (e ▸ List.mem_map_of_mem hb)
    · obtain ⟨t, t', m, x1, x2, x3, x4⟩ := ih (hst.tail h1) a ha
      exact ⟨t, t', m, x1, x2, x3, fun m hm => List.mem_append_right _ (x4 m hm)⟩

end

/-! ### The auctions picked by the end-block hook -/

theorem bLe_pk (k : Key) : bLe (pkBytes ([], [])) (pkBytes k) = true := by
  show bLe [0, 0] (_ :: _ :: _) = true
  generalize UInt8.ofNat (k.1.length / 256) = x
  generalize UInt8.ofNat k.1.length = y
  have hx : (0 : UInt8) < x ∨ x = 0 := by
    rcases Nat.eq_zero_or_pos x.toNat with h | h
    · right; exact UInt8.toNat_inj.mp h
    · left; exact UInt8.lt_iff_toNat_lt.mpr h
  have hy : (0 : UInt8) < y ∨ y = 0 := by
    rcases Nat.eq_zero_or_pos y.toNat with h | h
    · right; exact UInt8.toNat_inj.mp h
    · left; exact UInt8.lt_iff_toNat_lt.mpr h
  simp only [bLe]
  rcases hx with hx | rfl
  · have : (0 : UInt8) ≠ x := fun e => by subst e; exact absurd hx (by decide)
    simp [hx, this]
  · rcases hy with hy | rfl <;> simp_all

theorem okMax_end {n : Nat} {e : Nat} {k : Key} :
    okMax pkLe (some (.excl (n + 1, pkBytes ([], [])))) (e, pkBytes k) = true ↔ e ≤ n := by
  have hb := bLe_pk k
  simp only [okMax, pkLe, Bool.and_eq_true, Bool.or_eq_true, decide_eq_true_eq, Bool.not_eq_true', Bool.or_eq_false_iff,
    decide_eq_false_iff_not, Bool.and_eq_false_iff, hb]
  constructor
  · rintro ⟨h1, h2, h3⟩
    simp only [Bool.true_eq_false, or_false] at h3
    omega
  · intro h
    refine ⟨Or.inl (by omega), by omega, Or.inl (by omega)⟩

/-- All due auctions in order. -/
def allDue (ctx : Ctx) (s : State) : List ((Nat × Bytes) × Auction) :=
  scan pkLe (endEntries s) false none (some (.excl (secs ctx.time + 1, pkBytes ([], []))))

theorem due_eq (ctx : Ctx) (s : State) : dueAuctions ctx s = ((allDue ctx s).take (s.config.maxSettle % 2^32)).map Prod.snd := rfl

theorem mem_allDue {ctx : Ctx} {s : State} {e : (Nat × Bytes) × Auction} :
    e ∈ allDue ctx s ↔ ∃ k, s.auctions.get? k = some e.2 ∧ e.1 = (e.2.endKey, pkBytes k) ∧ e.2.endKey ≤ secs ctx.time := by
  unfold allDue
  rw [mem_scan]
  unfold endEntries
  rw [List.mem_map]
  constructor
  · rintro ⟨⟨⟨k, a⟩, hm, rfl⟩, _, h⟩
    rw [AMap.mem_iff] at hm
    exact ⟨k, hm, rfl, okMax_end.mp h⟩
  · rintro ⟨k, hk, he, hle⟩
    refine ⟨⟨(k, e.2), AMap.mem_iff.mpr hk, by rw [← he]⟩, rfl, ?_⟩
    rw [he]; exact okMax_end.mpr hle

theorem allDue_nodup {ctx : Ctx} {s : State} (hw : WF p me s) : ((allDue ctx s).map (fun e => e.2.key)).Nodup := by
  have h1 : ((endEntries s).map (fun e => e.2.key)).Nodup := by
    have : (endEntries s).map (fun e => e.2.key) = s.auctions.l.map Prod.fst := by
      unfold endEntries
      rw [List.map_map]
      apply List.map_congr_left
      rintro ⟨k, a⟩ hm
      exact (hw.auctions k a (AMap.mem_iff.mp hm)).key
    rw [this]; exact s.auctions.nd
  unfold allDue scan
  simp only [Bool.false_eq_true, if_false]
  have h2 : ((sortBy (fun a b : (Nat × Bytes) × Auction => pkLe a.1 b.1) (endEntries s)).map (fun e => e.2.key)).Nodup :=
    ((sortBy_perm (le := fun a b : (Nat × Bytes) × Auction => pkLe a.1 b.1) (endEntries s)).map _).nodup_iff.mpr h1
  exact (List.Sublist.map _ List.filter_sublist).nodup h2

theorem due_stored {ctx : Ctx} {s : State} (hw : WF p me s) : Stored s (dueAuctions ctx s) := by
  constructor
  · intro a ha
    rw [due_eq, List.mem_map] at ha
    obtain ⟨e, he, rfl⟩ := ha
    obtain ⟨k, hk, _⟩ := mem_allDue.mp (List.mem_of_mem_take he)
    rw [(hw.auctions _ _ hk).key]; exact hk
  · rw [due_eq, List.map_map]
    exact (List.Sublist.map _ (List.take_sublist _ _)).nodup (allDue_nodup hw)

theorem U64_big : U64MAX / NS < U64MAX := by decide

theorem due_secs {ctx : Ctx} {s : State} {a : Auction} (ht : ctx.time ≤ U64MAX) (ha : a ∈ dueAuctions ctx s) :
    ∃ e, a.endTime = some e ∧ secs e ≤ secs ctx.time := by
  rw [due_eq, List.mem_map] at ha
  obtain ⟨e, he, rfl⟩ := ha
  obtain ⟨k, _, _, h⟩ := mem_allDue.mp (List.mem_of_mem_take he)
  unfold Auction.endKey at h
  split at h
  case h_1 t h1 => exact ⟨t, h1, h⟩
  case h_2 h1 =>
    have h2 : secs ctx.time ≤ U64MAX / NS := Nat.div_le_div_right ht
    have := U64_big
    omega

/-! ### Reachable states -/

theorem WF.init {c : Config} {mins : List Coin} {s : State} (h : instantiate p c mins = .ok s) : WF p me s := by
  unfold instantiate at h
  simp only [bind_ok] at h
  obtain ⟨_, _, _, hc, _, _, h⟩ := h
  cases h
  refine ⟨?_, hc⟩
  intro k a h; simp at h

theorem WF.exec {ctx : Ctx} {sender : Addr} {funds : List Coin} {m : Exec} {s s' : State} {msgs : List Msg}
    (hw : WF p me s) (hne : sender ≠ me) (e : Eff p ctx sender funds s m s' msgs) : WF p me s' := by
  cases e with
  | create coll tok r dur rec min hv =>
    exact ⟨insert_good hw.auctions ⟨rfl, hv, by simp, by simp, by simp, hne, by simp⟩, hw.config⟩
  | reserve coll tok r a min hv hf ha hs hb =>
    have hg := hw.auctions _ _ ha
    have he := hg.first.mp hb
    have hh := hg.high.mpr he
    exact ⟨insert_good hw.auctions ⟨rfl, hg.valid, hg.high, hg.first, by simp [hh], hg.seller, hg.endMax⟩, hw.config⟩
  | cancel => exact ⟨erase_good hw.auctions, hw.config⟩
  | bid1 coll tok a n m e hv ha hs hfunds hpos hm hge hend hb hov he =>
    have hg := hw.auctions _ _ ha
    refine ⟨insert_good hw.auctions ⟨rfl, hg.valid, by simp, by simp, ?_, hg.seller, ?_⟩, hw.config⟩
    · rintro h ⟨⟩; exact ⟨rfl, hpos, fun e => hs e.symm, hne⟩
    · rintro x ⟨⟩; exact hov
  | bid2 coll tok a n m f e e' h hv ha hs hfunds hpos hm hge hend hb hh hz he he' =>
    have hg := hw.auctions _ _ ha
    refine ⟨insert_good hw.auctions ⟨rfl, hg.valid, by simp, by simp, ?_, hg.seller, ?_⟩, hw.config⟩
    · rintro h ⟨⟩; exact ⟨rfl, hpos, fun e => hs e.symm, hne⟩
    · rintro x ⟨⟩
      split at he'
      · exact he'.1
      · rw [he']; exact hg.endMax e he
  | settle coll tok a _ _ hv hf ha h =>
    have hg := hw.auctions _ _ ha
    exact h.wf hw (by rw [hg.key]; exact ha)

theorem WF.sudo {ctx : Ctx} {m : Sudo} {s s' : State} {msgs : List Msg} (hw : WF p me s) (e : SEff p ctx s m s' msgs) :
    WF p me s' := by
  cases e with
  | begin => exact ⟨hw.auctions, hw.config⟩
  | stop earliest s1 _ _ _ hb =>
    have := hb.wf hw (due_stored hw)
    exact ⟨this.auctions, this.config⟩
  | params u c hc => exact ⟨hw.auctions, hc⟩
  | setMin => exact ⟨hw.auctions, hw.config⟩
  | unsetMin => exact ⟨hw.auctions, hw.config⟩

theorem WF.step {s s' : State} (hw : WF p me s) (h : Step p me s s') : WF p me s' := by
  cases h with
  | call _ hne h => exact hw.exec hne (execute_eff h)
  | sudo _ h => exact hw.sudo (sudo_eff h)

theorem WF.after {s s' : State} (hw : WF p me s) (h : After p me s s') : WF p me s' := by
  induction h with
  | refl => exact hw
  | step _ hs ih => exact ih.step hs

theorem Spec.Reach.wf {s : State} (h : Reach p me s) : WF p me s := by
  obtain ⟨c, mins, s0, hi, ha⟩ := h
  exact (WF.init hi).after ha

theorem Spec.Reach.step {s s' : State} (h : Reach p me s) (hs : Step p me s s') : Reach p me s' := by
  obtain ⟨c, mins, s0, hi, ha⟩ := h
  exact ⟨c, mins, s0, hi, .step ha hs⟩

/-! ### What one step does to one auction -/

/-- The auction of token `k`, open before and after a step, was left alone, repriced, bid on or postponed. -/
inductive Moved (me : Addr) (s : State) (k : Key) (a a' : Auction) : Prop where
  | same (h : a' = a)
  | reserve (r : Coin) (min : Nat) (hb : a.firstBid = none) (hmin : s.minReserve.get? r.denom = some min)
      (hr : min ≤ r.amount) (h : a' = { a with reserve := r })
  | bid (t f e n m : Nat) (who : Addr) (hm : a.minBid s.config.minBidIncrement = .ok m) (hge : m ≤ n)
      (hpos : 0 < n) (hwho : who ≠ a.seller) (hme : who ≠ me)
      (hend : ∀ x, a.endTime = some x → secs t < secs x ∧ x ≤ e)
      (hf : ∀ x, a.firstBid = some x → f = x)
      (h : a' = { a with firstBid := some f, endTime := some e, highBid := some ⟨⟨a.reserve.denom, n⟩, who⟩ })
  | postponed (e e' : Nat) (he : a.endTime = some e) (hle : e ≤ e') (h : a' = { a with endTime := some e' })

theorem extend_le {t e e' ext : Nat} (hend : secs t < secs e)
    (he' : if secs e - secs t < ext then e' ≤ U64MAX ∧ e' = t + ext * NS else e' = e) : e ≤ e' := by
  split at he'
  case isFalse => rw [he']; exact Nat.le_refl _
  case isTrue hlt =>
    have h1 := lt_secs e
    have h2 := secs_le t
    have h3 : (secs e + 1) * NS ≤ (secs t + ext) * NS := Nat.mul_le_mul_right NS (by omega)
    rw [Nat.add_mul (secs t) ext] at h3
    rw [he'.2]
    omega

theorem Settled.moved {ctx : Ctx} {a : Auction} {c : Config} {ws : List HaltWindow} {s s' t : State} {ms : List Msg} {a' : Auction}
    {k : Key} (h : Settled p ctx a c ws s s' ms) (ha : s'.auctions.get? a.key = some a') : Moved me t k a a' := by
  cases h with
  | postponed e e' he hle hin hov he' =>
    simp only [AMap.get?_insert_self, Option.some.injEq] at ha
    exact .postponed e e' he (by rw [he']; exact Nat.le_trans hle (Nat.le_add_right _ _)) ha.symm
  | sold => simp at ha

theorem exec_moved {ctx : Ctx} {sender : Addr} {funds : List Coin} {m : Exec} {s s' : State} {msgs : List Msg} {k : Key}
    {a a' : Auction} (hw : WF p me s) (hne : sender ≠ me) (e : Eff p ctx sender funds s m s' msgs)
    (h : s.auctions.get? k = some a) (h' : s'.auctions.get? k = some a') : Moved me s k a a' := by
  -- the entry is overwritten or untouched
  have ins : ∀ {k0 : Key} {b b' : Auction}, s.auctions.get? k0 = some b → (s.auctions.insert b.key b').get? k = some a' →
      (k = k0 ∧ b = a ∧ b' = a') ∨ a' = a := by
    intro k0 b b' hb hi
    rw [AMap.get?_insert, (hw.auctions _ _ hb).key] at hi
    split at hi
    case isTrue e => subst e; rw [h] at hb; cases hb; cases hi; exact Or.inl ⟨rfl, rfl, rfl⟩
    case isFalse => rw [h] at hi; cases hi; exact Or.inr rfl
  cases e with
  | create coll tok r dur rec min hv hrec hown happ hno =>
    rw [AMap.get?_insert] at h'
    split at h'
    case isTrue e => subst e; rw [hno] at h; cases h
    · rw [h] at h'; cases h'; exact .same rfl
  | reserve coll tok r b min hv hf ha hs hb hmin hres =>
    rcases ins ha h' with ⟨rfl, rfl, rfl⟩ | rfl
    · exact .reserve r min hb hmin hres rfl
    · exact .same rfl
  | cancel coll tok b hv hf ha hs hb =>
    rw [AMap.get?_erase] at h'
    split at h'
    · cases h'
    · rw [h] at h'; cases h'; exact .same rfl
  | bid1 coll tok b n m e hv ha hs hfunds hpos hm hge hend hb hov he =>
    rcases ins ha h' with ⟨rfl, rfl, rfl⟩ | rfl
    · refine .bid ctx.time ctx.time e n m sender hm hge hpos (fun e => hs e.symm) hne ?_ (by simp [hb]) rfl
      intro x hx
      have := (hw.auctions _ _ ha).first.mp hb
      rw [this] at hx; cases hx
    · exact .same rfl
  | bid2 coll tok b n m f e e' hi hv ha hs hfunds hpos hm hge hend hb hh hz he he' =>
    rcases ins ha h' with ⟨rfl, rfl, rfl⟩ | rfl
    · refine .bid ctx.time f e' n m sender hm hge hpos (fun e => hs e.symm) hne ?_ (by simp [hb]) rfl
      intro x hx
      rw [he] at hx; cases hx
      exact ⟨hend, extend_le hend he'⟩
    · exact .same rfl
  | settle coll tok b _ _ hv hf ha hset =>
    have hk := (hw.auctions _ _ ha).key
    by_cases hkk : k = (coll, tok)
    · subst hkk
      rw [h] at ha; cases ha
      exact hset.moved (by rw [hk]; exact h')
    · rw [hset.frame.2.2.2.2 k (by rw [hk]; exact hkk), h] at h'
      cases h'; exact .same rfl

theorem sudo_moved {ctx : Ctx} {m : Sudo} {s s' : State} {msgs : List Msg} {k : Key} {a a' : Auction} (hw : WF p me s)
    (e : SEff p ctx s m s' msgs) (h : s.auctions.get? k = some a) (h' : s'.auctions.get? k = some a') : Moved me s k a a' := by
  cases e with
  | begin => rw [h] at h'; cases h'; exact .same rfl
  | params => rw [h] at h'; cases h'; exact .same rfl
  | setMin => rw [h] at h'; cases h'; exact .same rfl
  | unsetMin => rw [h] at h'; cases h'; exact .same rfl
  | stop earliest s1 _ _ _ hb =>
    have hst := due_stored (ctx := ctx) hw
    by_cases hk : ∃ b ∈ dueAuctions ctx s, b.key = k
    · obtain ⟨b, hb1, hb2⟩ := hk
      have hk := hst.1 b hb1
      rw [hb2, h] at hk; cases hk
      obtain ⟨t, t', m1, x1, x2, x3, _⟩ := hb.mem hst a hb1
      rw [hb2] at x3
      exact x1.moved (a' := a') (by rw [hb2, ← x3]; exact h')
    · have := hb.frame.2.2.2.2 k (fun b hb e => hk ⟨b, hb, e⟩)
      rw [← this] at h
      rw [h] at h'; cases h'; exact .same rfl

theorem step_moved {s s' : State} {k : Key} {a a' : Auction} (hw : WF p me s) (hs : Step p me s s')
    (h : s.auctions.get? k = some a) (h' : s'.auctions.get? k = some a') : Moved me s k a a' := by
  cases hs with
  | call _ hne hx => exact exec_moved hw hne (execute_eff hx) h h'
  | sudo _ hx => exact sudo_moved hw (sudo_eff hx) h h'

end Verif.Auction

/-
Reserve auction: properties about bidding, timing and the life cycle of an auction (C28, C30, C32-C34, C41, C43, C66, C67).
-/
import Verif.Auction.LifeLemmas
import Verif.Auction.Sample

namespace Verif.Auction
open Verif Spec

variable {p : Params} {me : Addr}

/-! ### C28 -/

/-- An accepted bid is at least the reserve price, or the previous high bid raised by the increment (rounded up), and
strictly above the previous bid; it becomes the high bid. -/
theorem C28_min {s s' : State} {ctx : Ctx} {sender : Addr} {funds : List Coin} {coll tok : Bytes} {msgs : List Msg}
    (hr : Reach p me s) (h : execute p ctx sender funds (.bid coll tok) s = .ok (s', msgs)) :
    ∃ a a' n, s.auctions.get? (coll, tok) = some a ∧ s'.auctions.get? (coll, tok) = some a' ∧
      funds = [⟨a.reserve.denom, n⟩] ∧ a'.highBid = some ⟨⟨a.reserve.denom, n⟩, sender⟩ ∧
      (a.highBid = none → a.reserve.amount ≤ n) ∧
      ∀ b, a.highBid = some b → b.coin.denom = a.reserve.denom ∧
        raised b.coin.amount s.config.minBidIncrement ≤ n ∧ b.coin.amount < n := by
  have hw := hr.wf
  have core : ∀ {a : Auction} {n m : Nat}, s.auctions.get? (coll, tok) = some a → a.minBid s.config.minBidIncrement = .ok m → m ≤ n →
      (a.highBid = none → a.reserve.amount ≤ n) ∧ ∀ b, a.highBid = some b → b.coin.denom = a.reserve.denom ∧
        raised b.coin.amount s.config.minBidIncrement ≤ n ∧ b.coin.amount < n := by
    intro a n m ha hm hge
    refine ⟨fun hn => by rw [← minBid_none hm hn]; exact hge, ?_⟩
    intro b hb
    obtain ⟨h1, h2, _⟩ := (hw.auctions _ _ ha).coin b hb
    have h3 := minBid_some hm hb
    have h4 := raised_gt ONE_pos h2 (validate_ok hw.config).1
    rw [← h3] at h4
    rw [raised_eq] at h3
    exact ⟨h1, by omega, by omega⟩
  cases execute_eff h with
  | bid1 _ _ a n m e hv ha hs hfunds hpos hm hge =>
    have hk := (hw.auctions _ _ ha).key
    exact ⟨a, _, n, ha, by rw [hk, AMap.get?_insert_self], hfunds, rfl, core ha hm hge⟩
  | bid2 _ _ a n m f e e' hi hv ha hs hfunds hpos hm hge =>
    have hk := (hw.auctions _ _ ha).key
    exact ⟨a, _, n, ha, by rw [hk, AMap.get?_insert_self], hfunds, rfl, core ha hm hge⟩

/-- While an auction stays open, whatever else happens, its high bid never decreases (and stays in the same denom). -/
theorem C28_history {k : Key} {s s' : State} (hr : Reach p me s) (ho : Open p me k s s') {a : Auction} {b : HighBid}
    (ha : s.auctions.get? k = some a) (hb : a.highBid = some b) :
    ∃ a' b', s'.auctions.get? k = some a' ∧ a'.highBid = some b' ∧ b.coin.denom = b'.coin.denom ∧
      b.coin.amount ≤ b'.coin.amount := by
  have key := open_ind (p := p) (me := me) (k := k)
    (R := fun a a' => ∀ b, a.highBid = some b → ∃ b', a'.highBid = some b' ∧ b.coin.denom = b'.coin.denom ∧ b.coin.amount ≤ b'.coin.amount)
    (fun a b hb => ⟨b, hb, rfl, Nat.le_refl _⟩) (fun s a x y hw hx hy hm ih b hb => by
      obtain ⟨b', h3, h4, h5⟩ := ih b hb
      cases hm with
      | same e => subst e; exact ⟨b', h3, h4, h5⟩
      | reserve r min _ _ _ e => subst e; exact ⟨b', h3, h4, h5⟩
      | postponed e e' _ _ h => subst h; exact ⟨b', h3, h4, h5⟩
      | bid t f e n m who hm hge hpos hwho hme hend hf h =>
        subst h
        obtain ⟨h1, h2, _⟩ := hx.coin b' h3
        have h6 := minBid_some hm h3
        have h7 := raised_gt ONE_pos h2 (validate_ok hw.config).1
        refine ⟨_, rfl, h4.trans h1, ?_⟩
        show b.coin.amount ≤ n
        omega) hr ho ha
  obtain ⟨a', h1, h2⟩ := key
  obtain ⟨b', h3, h4, h5⟩ := h2 b hb
  exact ⟨a', b', h1, h3, h4, h5⟩

/-- Non-vacuous: carol outbids bob in a reachable state; 105 would have been enough, 104 is refused. -/
example : Reach Sample.P Sample.self Sample.s3 ∧
    Sample.ok (Sample.ctx 1040500) Sample.carol [⟨Sample.ust, 105⟩] (.bid Sample.coll Sample.tok) Sample.s3 = true ∧
    Sample.ok (Sample.ctx 1040500) Sample.carol [⟨Sample.ust, 104⟩] (.bid Sample.coll Sample.tok) Sample.s3 = false :=
  ⟨Sample.r3, by decide +kernel, by decide +kernel⟩
example : Open Sample.P Sample.self (Sample.coll, Sample.tok) Sample.s3 Sample.s4 :=
  .step (.refl _) (.call (ctx := Sample.ctx 1040500) (sender := Sample.carol) (funds := [⟨Sample.ust, 120⟩])
    (m := .bid Sample.coll Sample.tok) rfl (by decide) (Sample.run_eq (by decide +kernel))) (by decide +kernel)

/-! ### C30 -/

/-- A high bid, an end time and a first bid time exist together; the high bid is positive and in the reserve denom. -/
theorem C30_fields {s : State} (hr : Reach p me s) {k : Key} {a : Auction} (ha : s.auctions.get? k = some a) :
    (a.highBid.isSome ↔ a.endTime.isSome) ∧ (a.firstBid.isSome ↔ a.endTime.isSome) ∧
    ∀ b, a.highBid = some b → b.coin.denom = a.reserve.denom ∧ 0 < b.coin.amount := by
  have hg := hr.wf.auctions _ _ ha
  refine ⟨?_, ?_, fun b hb => ⟨(hg.coin b hb).1, (hg.coin b hb).2.1⟩⟩
  · have := hg.high
    cases h1 : a.highBid <;> cases h2 : a.endTime <;> simp_all
  · have := hg.first
    cases h1 : a.firstBid <;> cases h2 : a.endTime <;> simp_all

/-- No call and no hook fails on an `unwrap`. -/
theorem C30_no_panic {s : State} (hl : LibCalm p.lib) (hr : Reach p me s) (ctx : Ctx) :
    (∀ sender funds m, execute p ctx sender funds m s ≠ .error .panic) ∧
    (ctx.time ≤ U64MAX → ∀ m, sudo p ctx m s ≠ .error .panic) :=
  ⟨fun _ _ _ => execute_ne hl hr.wf, fun ht _ => sudo_ne hl hr.wf ht⟩

example : Reach Sample.P Sample.self Sample.s4 ∧ LibCalm Sample.P.lib := ⟨Sample.r4, Sample.libCalm⟩

/-! ### C32 -/

/-- Only the seller can cancel, only before the first bid; the NFT goes back to the seller. -/
theorem C32_cancel {s s' : State} {ctx : Ctx} {sender : Addr} {funds : List Coin} {coll tok : Bytes} {msgs : List Msg}
    (hr : Reach p me s) (h : execute p ctx sender funds (.cancel coll tok) s = .ok (s', msgs)) :
    ∃ a, s.auctions.get? (coll, tok) = some a ∧ a.seller = sender ∧ a.highBid = none ∧
      s'.auctions.get? (coll, tok) = none ∧ msgs = [.nft coll tok sender] ∧ funds = [] := by
  cases execute_eff h with
  | cancel _ _ a hv hf ha hs hb =>
    have hg := hr.wf.auctions _ _ ha
    exact ⟨a, ha, hs, hg.high.mpr (hg.first.mp hb), by rw [hg.key, AMap.get?_erase_self], by rw [hs], hf⟩

/-- Only the seller can change the reserve price, only before the first bid and only to a price of at least
the minimum set for its denomination; nothing else of the auction changes. -/
theorem C32_reserve {s s' : State} {ctx : Ctx} {sender : Addr} {funds : List Coin} {coll tok : Bytes} {r : Coin} {msgs : List Msg}
    (hr : Reach p me s) (h : execute p ctx sender funds (.updateReserve coll tok r) s = .ok (s', msgs)) :
    ∃ a, s.auctions.get? (coll, tok) = some a ∧ a.seller = sender ∧ a.highBid = none ∧
      s'.auctions.get? (coll, tok) = some { a with reserve := r } ∧ msgs = [] ∧ funds = [] ∧
      ∃ min, s.minReserve.get? r.denom = some min ∧ min ≤ r.amount := by
  cases execute_eff h with
  | reserve _ _ _ a min hv hf ha hs hb hmin hres =>
    have hg := hr.wf.auctions _ _ ha
    exact ⟨a, ha, hs, hg.high.mpr (hg.first.mp hb), by rw [hg.key, AMap.get?_insert_self], rfl, hf, min, hmin, hres⟩

/-- While an auction is open its seller, duration and funds recipient never change; once there is a bid, neither does
the reserve price. -/
theorem C32_frozen {k : Key} {s s' : State} (hr : Reach p me s) (ho : Open p me k s s') {a : Auction}
    (ha : s.auctions.get? k = some a) :
    ∃ a', s'.auctions.get? k = some a' ∧ a'.seller = a.seller ∧ a'.duration = a.duration ∧ a'.recipient = a.recipient ∧
      (a.highBid ≠ none → a'.highBid ≠ none ∧ a'.reserve = a.reserve) := by
  refine open_ind (p := p) (me := me) (k := k)
    (R := fun a a' => a'.seller = a.seller ∧ a'.duration = a.duration ∧ a'.recipient = a.recipient ∧
      (a.highBid ≠ none → a'.highBid ≠ none ∧ a'.reserve = a.reserve))
    (fun a => ⟨rfl, rfl, rfl, fun h => ⟨h, rfl⟩⟩) ?_ hr ho ha
  rintro s a x y hw hx hy hm ⟨h1, h2, h3, h4⟩
  cases hm with
  | same e => subst e; exact ⟨h1, h2, h3, h4⟩
  | reserve r min hb _ _ e =>
    subst e
    refine ⟨h1, h2, h3, fun h => ?_⟩
    exact absurd (hx.high.mpr (hx.first.mp hb)) (h4 h).1
  | postponed e e' _ _ h => subst h; exact ⟨h1, h2, h3, h4⟩
  | bid t f e n m who hm hge hpos hwho hme hend hf h => subst h; exact ⟨h1, h2, h3, fun h => ⟨by simp, (h4 h).2⟩⟩

example : Sample.ok (Sample.ctx 1000000) Sample.alice [] (.cancel Sample.coll Sample.tok) Sample.s2 = true ∧
    Sample.ok (Sample.ctx 1000000) Sample.bob [] (.cancel Sample.coll Sample.tok) Sample.s2 = false ∧
    Sample.ok (Sample.ctx 1000000) Sample.alice [] (.cancel Sample.coll Sample.tok) Sample.s3 = false ∧
    Sample.ok (Sample.ctx 1000000) Sample.alice [] (.updateReserve Sample.coll Sample.tok ⟨Sample.ust, 50⟩) Sample.s2 = true ∧
    Sample.ok (Sample.ctx 1000000) Sample.alice [] (.updateReserve Sample.coll Sample.tok ⟨Sample.ust, 50⟩) Sample.s3 = false := by
  decide +kernel

/-! ### C33 -/

/-- At no time can the same auction be both bid on and settled. -/
theorem C33_exclusive {s : State} {ctx ctx' : Ctx} {a b : Addr} {f g : List Coin} {coll tok : Bytes} {r r' : State × List Msg}
    (ht : ctx.time = ctx'.time) (h1 : execute p ctx a f (.bid coll tok) s = .ok r)
    (h2 : execute p ctx' b g (.settle coll tok) s = .ok r') : False := by
  obtain ⟨s1, m1⟩ := r
  obtain ⟨s2, m2⟩ := r'
  have key : ∀ {x : Auction}, s.auctions.get? (coll, tok) = some x → (∀ e, x.endTime = some e → secs ctx.time < secs e) → False := by
    intro x hx hend
    cases execute_eff h2 with
    | settle _ _ y _ _ hv hf hy hs =>
      rw [hx] at hy; cases hy
      cases hs with
      | postponed e e' he hle =>
        have := hend e he
        have := secs_mono hle
        rw [ht] at *; omega
      | sold e hb roy pay he hle =>
        have := hend e he
        have := secs_mono hle
        rw [ht] at *; omega
  cases execute_eff h1 with
  | bid1 _ _ x n m e hv ha hs hfunds hpos hm hge hend => exact key ha hend
  | bid2 _ _ x n m f e e' hi hv ha hs hfunds hpos hm hge hend hb hh hz he =>
    exact key ha (fun x hx => by rw [he] at hx; cases hx; exact hend)

/-- Settling (or postponing) needs a past end time. -/
theorem C33_settle {s s' : State} {ctx : Ctx} {sender : Addr} {f : List Coin} {coll tok : Bytes} {msgs : List Msg}
    (h : execute p ctx sender f (.settle coll tok) s = .ok (s', msgs)) : EndedBy s (coll, tok) ctx.time := by
  cases execute_eff h with
  | settle _ _ y _ _ hv hf hy hs =>
    cases hs with
    | postponed e e' he hle => exact ⟨y, e, hy, he, hle⟩
    | sold e hb roy pay he hle => exact ⟨y, e, hy, he, hle⟩

/-- The same for the end-block hook: whatever it changes has ended. -/
theorem C33_end_block {s s' : State} {ctx : Ctx} {msgs : List Msg} (hr : Reach p me s)
    (h : sudo p ctx .endBlock s = .ok (s', msgs)) {k : Key} (hk : s'.auctions.get? k ≠ s.auctions.get? k) :
    EndedBy s k ctx.time := by
  have hw := hr.wf
  cases sudo_eff h with
  | stop earliest s1 _ _ _ hb =>
    have hst := due_stored (ctx := ctx) hw
    by_cases hin : ∃ b ∈ dueAuctions ctx s, b.key = k
    · obtain ⟨b, hb1, rfl⟩ := hin
      obtain ⟨t, t', m1, x1, x2, x3, _⟩ := hb.mem hst b hb1
      cases x1 with
      | postponed e e' he hle => exact ⟨b, e, hst.1 b hb1, he, hle⟩
      | sold e hb roy pay he hle => exact ⟨b, e, hst.1 b hb1, he, hle⟩
    · exact absurd (hb.frame.2.2.2.2 k (fun b hb e => hin ⟨b, hb, e⟩)) hk

/-- No bid is accepted in or after the second in which the auction ends. -/
theorem C33_bid {s s' : State} {ctx : Ctx} {sender : Addr} {f : List Coin} {coll tok : Bytes} {msgs : List Msg}
    (h : execute p ctx sender f (.bid coll tok) s = .ok (s', msgs)) {a : Auction} {e : Nat}
    (ha : s.auctions.get? (coll, tok) = some a) (he : a.endTime = some e) : sec ctx.time < sec e ∧ ctx.time < e := by
  have : secs ctx.time < secs e := by
    cases execute_eff h with
    | bid1 _ _ x n m e hv hx hs hfunds hpos hm hge hend => rw [ha] at hx; cases hx; exact hend _ he
    | bid2 _ _ x n m f e e' hi hv hx hs hfunds hpos hm hge hend hb hh hz he' =>
      rw [ha] at hx; cases hx
      rw [he] at he'; cases he'; exact hend
  refine ⟨this, Nat.lt_of_not_le fun hle => ?_⟩
  have := secs_mono hle
  omega

example : Sample.ok (Sample.ctx 1069999) Sample.bob [⟨Sample.ust, 200⟩] (.bid Sample.coll Sample.tok) Sample.s4 = true ∧
    Sample.ok (Sample.ctx 1069999) Sample.bob [] (.settle Sample.coll Sample.tok) Sample.s4 = false ∧
    -- neither at 1070.2 s
    Sample.ok (Sample.ctx 1070200) Sample.bob [⟨Sample.ust, 200⟩] (.bid Sample.coll Sample.tok) Sample.s4 = false ∧
    Sample.ok (Sample.ctx 1070200) Sample.bob [] (.settle Sample.coll Sample.tok) Sample.s4 = false ∧
    Sample.ok (Sample.ctx 1070500) Sample.bob [] (.settle Sample.coll Sample.tok) Sample.s4 = true := by
  decide +kernel

/-! ### C34 -/

/-- The first bid sets the end to its time plus the duration; a later bid never moves it earlier and leaves at least the
extension (in whole seconds): it moves the end to its time plus the extension exactly if less than that was left. -/
theorem C34_bid {s s' : State} {ctx : Ctx} {sender : Addr} {f : List Coin} {coll tok : Bytes} {msgs : List Msg}
    (hr : Reach p me s) (h : execute p ctx sender f (.bid coll tok) s = .ok (s', msgs)) :
    ∃ a a' e', s.auctions.get? (coll, tok) = some a ∧ s'.auctions.get? (coll, tok) = some a' ∧ a'.endTime = some e' ∧
      (a.highBid = none → e' = ctx.time + a.duration * 1000000000 ∧ a'.firstBid = some ctx.time) ∧
      (∀ e, a.endTime = some e → e ≤ e' ∧ sec ctx.time + s.config.extendDuration ≤ sec e' ∧ a'.firstBid = a.firstBid ∧
        e' = if sec e < sec ctx.time + s.config.extendDuration then ctx.time + s.config.extendDuration * 1000000000 else e) := by
  have hw := hr.wf
  cases execute_eff h with
  | bid1 _ _ x n m e hv hx hs hfunds hpos hm hge hend hb hov he =>
    have hg := hw.auctions _ _ hx
    have hn := hg.first.mp hb
    exact ⟨x, _, e, hx, by rw [hg.key, AMap.get?_insert_self], rfl, fun _ => ⟨he, rfl⟩,
      fun e' h => by rw [hn] at h; cases h⟩
  | bid2 _ _ x n m f e e' hi hv hx hs hfunds hpos hm hge hend hb hh hz he he' =>
    have hg := hw.auctions _ _ hx
    refine ⟨x, _, e', hx, by rw [hg.key, AMap.get?_insert_self], rfl, ?_, ?_⟩
    · intro h0
      rw [h0] at hh; cases hh
    intro e0 h0
    rw [he] at h0; cases h0
    refine ⟨extend_le hend he', ?_, hb.symm, ?_⟩
    · split at he'
      case isTrue => rw [he'.2]; rw [← secs_eq (ctx.time + _), secs_add]; exact Nat.le_refl _
      case isFalse hlt =>
        rw [he']
        show secs ctx.time + _ ≤ secs e
        omega
    · rw [← secs_eq, ← secs_eq]
      split at he'
      case isTrue hlt => rw [if_pos (by omega)]; exact he'.2
      case isFalse hlt => rw [if_neg (by omega)]; exact he'

/-- While an auction stays open, its end time never moves earlier, whatever happens. -/
theorem C34_never_earlier {k : Key} {s s' : State} (hr : Reach p me s) (ho : Open p me k s s') {a : Auction} {e : Nat}
    (ha : s.auctions.get? k = some a) (he : a.endTime = some e) :
    ∃ a' e', s'.auctions.get? k = some a' ∧ a'.endTime = some e' ∧ e ≤ e' := by
  have key := open_ind (p := p) (me := me) (k := k)
    (R := fun a a' => ∀ e, a.endTime = some e → ∃ e', a'.endTime = some e' ∧ e ≤ e')
    (fun a e he => ⟨e, he, Nat.le_refl _⟩) (fun s a x y hw hx hy hm ih e he => by
      obtain ⟨e1, h3, h4⟩ := ih e he
      cases hm with
      | same h => subst h; exact ⟨e1, h3, h4⟩
      | reserve r min _ _ _ h => subst h; exact ⟨e1, h3, h4⟩
      | postponed e2 e' he2 hle h =>
        subst h
        rw [h3] at he2; cases he2
        exact ⟨e', rfl, Nat.le_trans h4 hle⟩
      | bid t f e' n m who hm hge hpos hwho hme hend hf h =>
        subst h
        exact ⟨e', rfl, Nat.le_trans h4 (hend _ h3).2⟩) hr ho ha
  obtain ⟨a', h1, h2⟩ := key
  obtain ⟨e', h3, h4⟩ := h2 e he
  exact ⟨a', e', h1, h3, h4⟩

/-- Postponement: the new end is the block time plus the configured postponement, hence not earlier. -/
theorem C34_postpone {s s' : State} {ctx : Ctx} {sender : Addr} {f : List Coin} {coll tok : Bytes} {msgs : List Msg}
    (hr : Reach p me s) (h : execute p ctx sender f (.settle coll tok) s = .ok (s', msgs)) {a' : Auction}
    (ha' : s'.auctions.get? (coll, tok) = some a') :
    ∃ a e e', s.auctions.get? (coll, tok) = some a ∧ a.endTime = some e ∧ a'.endTime = some e' ∧ e ≤ ctx.time ∧
      e' = ctx.time + s.config.haltPostpone * 1000000000 ∧ a' = { a with endTime := some e' } := by
  cases execute_eff h with
  | settle _ _ y _ _ hv hf hy hs =>
    have hk := (hr.wf.auctions _ _ hy).key
    cases hs with
    | postponed e e' he hle hin hov he' =>
      rw [hk, AMap.get?_insert_self] at ha'
      cases ha'
      exact ⟨y, e, e', hy, he, rfl, hle, he', rfl⟩
    | sold => simp [hk] at ha'

/-- Non-vacuous: an early bid leaves the end alone, a late bid extends. -/
example : ((Sample.run (Sample.ctx 1010000) Sample.carol [⟨Sample.ust, 120⟩] (.bid Sample.coll Sample.tok) Sample.s3).1.auctions.get?
      (Sample.coll, Sample.tok)).bind (fun a => a.endTime) = some 1060000000000 ∧
    (Sample.s4.auctions.get? (Sample.coll, Sample.tok)).bind (fun a => a.endTime) = some 1070500000000 := by
  decide +kernel

/-! ### C41 -/

/-- The configuration stays within its bounds. -/
theorem C41_config {s : State} (hr : Reach p me s) :
    0 < s.config.minBidIncrement ∧ s.config.minBidIncrement < 10^18 ∧ 0 < s.config.minDuration ∧ 0 < s.config.extendDuration :=
  validate_ok hr.wf.config

/-- Every open auction got its duration and its reserve price at some earlier point (`s0`, `s1`) at which they were within
the bounds configured then. -/
theorem C41_auctions {s : State} (hr : Reach p me s) {k : Key} {a : Auction} (ha : s.auctions.get? k = some a) :
    (∃ s0, Reach p me s0 ∧ After p me s0 s ∧ s0.config.minDuration ≤ a.duration ∧ a.duration ≤ s0.config.maxDuration) ∧
    (∃ s1 m, Reach p me s1 ∧ After p me s1 s ∧ s1.minReserve.get? a.reserve.denom = some m ∧ m ≤ a.reserve.amount) := by
  obtain ⟨c, mins, si, hi, haft⟩ := hr
  induction haft generalizing a with
  | refl => rw [init_empty hi] at ha; cases ha
  | @step b s' h hs ih =>
    have hrb : Reach p me b := ⟨c, mins, si, hi, h⟩
    have hw := hrb.wf
    have old : ∀ {x : Auction}, b.auctions.get? k = some x → x.duration = a.duration → x.reserve = a.reserve →
        (∃ s0, Reach p me s0 ∧ After p me s0 s' ∧ s0.config.minDuration ≤ a.duration ∧ a.duration ≤ s0.config.maxDuration) ∧
        (∃ s1 m, Reach p me s1 ∧ After p me s1 s' ∧ s1.minReserve.get? a.reserve.denom = some m ∧ m ≤ a.reserve.amount) := by
      intro x hx h1 h2
      obtain ⟨⟨s0, i1, i2, i3⟩, ⟨s1, m, j1, j2, j3⟩⟩ := ih hx
      rw [h1] at i3; rw [h2] at j3
      exact ⟨⟨s0, i1, .step i2 hs, i3⟩, ⟨s1, m, j1, .step j2 hs, j3⟩⟩
    cases hb : b.auctions.get? k with
    | some x =>
      cases step_moved hw hs hb ha with
      | same e => subst e; exact old hb rfl rfl
      | reserve r min _ hmin hr e =>
        subst e
        obtain ⟨⟨s0, i1, i2, i3⟩, _⟩ := ih hb
        exact ⟨⟨s0, i1, .step i2 hs, i3⟩, ⟨b, min, hrb, .step (.refl _) hs, hmin, hr⟩⟩
      | postponed _ _ _ _ e => subst e; exact old hb rfl rfl
      | bid t f e' n m who hm hge hpos hwho hme hend hf h => subst h; exact old hb rfl rfl
    | none =>
      -- the auction was created by this step
      cases hs with
      | sudo _ hx =>
        exfalso
        cases sudo_eff hx with
        | begin => rw [hb] at ha; cases ha
        | params => rw [hb] at ha; cases ha
        | setMin => rw [hb] at ha; cases ha
        | unsetMin => rw [hb] at ha; cases ha
        | stop earliest s1 _ _ _ hbat =>
          have := hbat.held_sub (due_stored hw) (cc := k.1) (t := k.2) (by
            show s1.auctions.get? k ≠ none
            intro e; rw [show s1.auctions.get? k = some a from ha] at e; cases e)
          exact this hb
      | call hself hne hx =>
        have hst := Step.call hself hne hx
        have none_of : ∀ {k0 : Key} {x y : Auction}, b.auctions.get? k0 = some x → (b.auctions.insert x.key y).get? k = some a → False := by
          intro k0 x y hx hi
          rw [AMap.get?_insert, (hw.auctions _ _ hx).key] at hi
          split at hi
          case isTrue e => subst e; rw [hb] at hx; cases hx
          · rw [hb] at hi; cases hi
        cases execute_eff hx with
        | create coll tok r dur rec min hv hrec hown happ hno htr hmin hres hdur hfee =>
          rw [AMap.get?_insert] at ha
          split at ha
          case isFalse => rw [hb] at ha; cases ha
          case isTrue e =>
            cases ha
            exact ⟨⟨b, hrb, .step (.refl _) hst, hdur⟩, ⟨b, min, hrb, .step (.refl _) hst, hmin, hres⟩⟩
        | reserve coll tok r x min hv hf hx' => exact (none_of hx' ha).elim
        | bid1 coll tok x n m e hv hx' => exact (none_of hx' ha).elim
        | bid2 coll tok x n m f e e' h hv hx' => exact (none_of hx' ha).elim
        | cancel coll tok x hv hf hx' =>
          rw [AMap.get?_erase] at ha
          split at ha
          · cases ha
          · rw [hb] at ha; cases ha
        | settle coll tok x _ _ hv hf hx' hset =>
          have := hset.held_sub (by rw [(hw.auctions _ _ hx').key]; exact hx') (cc := k.1) (t := k.2) (by
            show s'.auctions.get? k ≠ none
            rw [ha]; simp)
          exact absurd hb this

example : Sample.ok (Sample.ctx 1000000 (some Sample.alice)) Sample.alice [⟨Sample.ust, 5⟩] (.create Sample.coll Sample.tok ⟨Sample.ust, 9⟩ 60 none) Sample.s1 = false ∧
    Sample.ok (Sample.ctx 1000000 (some Sample.alice)) Sample.alice [⟨Sample.ust, 5⟩] (.create Sample.coll Sample.tok ⟨Sample.ust, 10⟩ 9 none) Sample.s1 = false ∧
    Sample.ok (Sample.ctx 1000000 (some Sample.alice)) Sample.alice [⟨Sample.ust, 5⟩] (.create Sample.coll Sample.tok ⟨Sample.ust, 10⟩ 1001 none) Sample.s1 = false ∧
    Sample.ok (Sample.ctx 1000000 (some Sample.alice)) Sample.alice [⟨Sample.ust, 5⟩] (.create Sample.coll Sample.tok ⟨Sample.ust, 10⟩ 1000 none) Sample.s1 = true := by
  decide +kernel

/-! ### C43 -/

/-- A call on one token leaves all other auctions alone. -/
theorem C43_frame {s s' : State} {ctx : Ctx} {sender : Addr} {funds : List Coin} {m : Exec} {msgs : List Msg}
    (hr : Reach p me s) (h : execute p ctx sender funds m s = .ok (s', msgs)) {k : Key} (hk : k ≠ keyOf m) :
    s'.auctions.get? k = s.auctions.get? k := by
  have hw := hr.wf
  have ins : ∀ {k0 : Key} {x : Auction} (y : Auction), s.auctions.get? k0 = some x → k ≠ k0 →
      (s.auctions.insert x.key y).get? k = s.auctions.get? k := by
    intro k0 x y hx hne
    rw [AMap.get?_insert, (hw.auctions _ _ hx).key]
    exact if_neg (fun e => hne e.symm)
  cases execute_eff h with
  | create =>
    simp only [AMap.get?_insert]
    exact if_neg (fun e => hk e.symm)
  | reserve coll tok r x min hv hf hx => exact ins _ hx hk
  | bid1 coll tok x n m e hv hx => exact ins _ hx hk
  | bid2 coll tok x n m f e e' h hv hx => exact ins _ hx hk
  | cancel coll tok x hv hf hx =>
    simp only [AMap.get?_erase, (hw.auctions _ _ hx).key]
    exact if_neg (fun e => hk e.symm)
  | settle coll tok x _ _ hv hf hx hset =>
    exact hset.frame.2.2.2.2 k (by rw [(hw.auctions _ _ hx).key]; exact hk)

/-- Every auction is stored under its own token, so there is at most one per token, and none can be created while one
is open. -/
theorem C43_unique {s : State} (hr : Reach p me s) {k k' : Key} {a a' : Auction} (ha : s.auctions.get? k = some a)
    (ha' : s.auctions.get? k' = some a') :
    k = (a.collection, a.tokenId) ∧ (a.collection = a'.collection → a.tokenId = a'.tokenId → k = k' ∧ a = a') ∧
    ∀ ctx sender funds r d rec res, execute p ctx sender funds (.create k.1 k.2 r d rec) s ≠ .ok res := by
  have h1 : (a.collection, a.tokenId) = k := (hr.wf.auctions _ _ ha).key
  have h2 : (a'.collection, a'.tokenId) = k' := (hr.wf.auctions _ _ ha').key
  refine ⟨h1.symm, ?_, ?_⟩
  · intro e1 e2
    have : k = k' := by rw [← h1, ← h2, e1, e2]
    subst this
    rw [ha] at ha'; cases ha'; exact ⟨rfl, rfl⟩
  · rintro ctx sender funds r d rec ⟨s1, m1⟩ h
    cases execute_eff h with
    | create _ _ _ _ _ min hv hrec hown happ hno => rw [show (k.1, k.2) = k from rfl, ha] at hno; cases hno

example : Sample.s2.auctions.get? (Sample.coll, Sample.tok) ≠ none ∧
    Sample.ok (Sample.ctx 1000000 (some Sample.bob)) Sample.bob [⟨Sample.ust, 5⟩] (.create Sample.coll [50] ⟨Sample.ust, 10⟩ 60 none) Sample.s2 = true := by
  decide +kernel

end Verif.Auction

/-
Reserve auctions: exactly which governance calls, block hooks and deployments are accepted: C161.
-/
import Verif.Auction.PropsAccepts
import Verif.Auction.PropsHooks
import Verif.Auction.PropsQuery
import Verif.Auction.PropsBook

namespace Verif.Auction
open Verif Spec

section
variable {p : Params} {me : Addr}

namespace Spec

/-- The auction of the token ends at `e`, and the second of that has come. -/
def Over (s : State) (now : Nat) (k : Key) (e : Nat) : Prop :=
  ∃ a, s.auctions.get? k = some a ∧ a.endTime = some e ∧ sec e ≤ sec now

/-- Order of tokens that end in the same second: shorter collection addresses first, then by bytes, then by token. -/
def KeyBefore (k j : Key) : Prop :=
  k.1.length < j.1.length ∨ k.1.length = j.1.length ∧ (k.1 ≠ j.1 ∧ bLe k.1 j.1 = true ∨ k.1 = j.1 ∧ bLe k.2 j.2 = true)

/-- The tokens whose turn it is at the end of a block: of those that are over the earliest, as many as configured (the number is
cut to 32 bits). -/
structure Turn (s : State) (now : Nat) (L : List Key) : Prop where
  nodup : L.Nodup
  over : ∀ k ∈ L, ∃ e, Over s now k e
  many : L.length = Nat.min (s.config.maxSettle % 2^32) (dueCount s now)
  first : ∀ k ∈ L, ∀ j, j ∉ L → ∀ e f, Over s now k e → Over s now j f → sec e < sec f ∨ sec e = sec f ∧ KeyBefore k j

/-- The settings that are accepted. -/
def Sound (c : Config) : Prop := 0 < c.minBidIncrement ∧ c.minBidIncrement < 10^18 ∧ 0 < c.minDuration ∧ 0 < c.extendDuration

/-- The governance calls and hooks that are accepted. -/
def GovAccepts (p : Params) (ctx : Ctx) (s : State) : Sudo → Prop
  | .beginBlock => s.prevBlock ≤ sec ctx.time ∧
    (0 < s.prevBlock → s.prevBlock + s.config.haltThreshold ≤ sec ctx.time → sec ctx.time + s.config.haltBuffer < 2^64)
  | .endBlock => ∃ L, Turn s ctx.time L ∧ ∀ k ∈ L, Accepts p ctx s ctx.self [] (.settle k.1 k.2)
  | .updateParams u => ValidOpt p u.fairBurn ∧ (∀ n, u.minBidIncrement = some n → 0 < n ∧ n < 10^18) ∧
    (∀ n, u.minDuration = some n → 0 < n) ∧ (∀ n, u.extendDuration = some n → 0 < n)
  | .setMinReserve cs => (cs.map Coin.denom).Nodup ∧ ∀ c ∈ cs, s.minReserve.get? c.denom = none
  | .unsetMinReserve ds => ds.Nodup ∧ ∀ d ∈ ds, s.minReserve.get? d ≠ none
end Spec

/-! ### settings -/

theorem sound_iff {c : Config} : c.validate = .ok () ↔ Sound c := by
  unfold Config.validate Sound
  simp only [bind_ok, ensure_ok]
  constructor
  · rintro ⟨_, h1, _, h2, _, h3, h4⟩; exact ⟨Nat.pos_of_ne_zero h1, h2, h3, h4⟩
  · rintro ⟨h1, h2, h3, h4⟩; exact ⟨(), Nat.pos_iff_ne_zero.mp h1, (), h2, (), h3, h4⟩

theorem getD_iff {P : Nat → Prop} {o : Option Nat} {d : Nat} (h : P d) : P (o.getD d) ↔ ∀ n, o = some n → P n := by
  cases o with
  | none => exact ⟨fun _ n hn => (by cases hn), fun _ => h⟩
  | some x => exact ⟨fun h n hn => (by cases hn; exact h), fun h => h x rfl⟩

theorem setMin_iff : ∀ {cs : List Coin} {m : AMap Denom Nat},
    (∃ m', setMinReserve cs m = .ok m') ↔ (cs.map Coin.denom).Nodup ∧ ∀ c ∈ cs, m.get? c.denom = none
  | [], m => ⟨fun _ => by simp, fun _ => ⟨m, rfl⟩⟩
  | c :: cs, m => by
    constructor
    · rintro ⟨m', h⟩
      obtain ⟨h1, h2, _⟩ := setMinReserve_eff h
      exact ⟨h1, fun c hc => (h2 c hc).1⟩
    · rintro ⟨h1, h2⟩
      rw [List.map_cons, List.nodup_cons] at h1
      have ih := (setMin_iff (cs := cs) (m := m.insert c.denom c.amount)).mpr ⟨h1.2, fun x hx => by
        rw [AMap.get?_insert, if_neg (fun e : c.denom = x.denom => h1.1 (e ▸ List.mem_map_of_mem hx))]
        exact h2 x (List.mem_cons_of_mem _ hx)⟩
      obtain ⟨m', hm⟩ := ih
      refine ⟨m', ?_⟩
      unfold setMinReserve
      rw [bind_ok]
      exact ⟨(), ensure_ok.mpr (h2 c List.mem_cons_self), hm⟩

theorem unsetMin_iff : ∀ {ds : List Denom} {m : AMap Denom Nat},
    (∃ m', unsetMinReserve ds m = .ok m') ↔ ds.Nodup ∧ ∀ d ∈ ds, m.get? d ≠ none
  | [], m => ⟨fun _ => by simp, fun _ => ⟨m, rfl⟩⟩
  | c :: cs, m => by
    constructor
    · rintro ⟨m', h⟩
      obtain ⟨h1, h2, _⟩ := unsetMinReserve_eff h
      exact ⟨h1, fun c hc => (h2 c hc).1⟩
    · rintro ⟨h1, h2⟩
      rw [List.nodup_cons] at h1
      have ih := (unsetMin_iff (ds := cs) (m := m.erase c)).mpr ⟨h1.2, fun x hx => by
        rw [AMap.get?_erase, if_neg (fun e : c = x => h1.1 (e ▸ hx))]
        exact h2 x (List.mem_cons_of_mem _ hx)⟩
      obtain ⟨m', hm⟩ := ih
      refine ⟨m', ?_⟩
      unfold unsetMinReserve
      rw [bind_ok]
      exact ⟨(), ensure_ok.mpr (Option.isSome_iff_ne_none.mpr (h2 c List.mem_cons_self)), hm⟩

/-! ### whose turn it is -/

theorem keyBefore_anti {k j : Key} (h1 : KeyBefore k j) (h2 : KeyBefore j k) : k = j := by
  rcases h1 with h1 | ⟨h1, h3 | h3⟩ <;> rcases h2 with h2 | ⟨h2, h4 | h4⟩
  · omega
  · omega
  · omega
  · omega
  · exact absurd (bLe_antisymm h3.2 h4.2) h3.1
  · exact absurd h4.1.symm h3.1
  · omega
  · exact absurd h3.1.symm h4.1
  · exact Prod.ext h3.1 (bLe_antisymm h3.2 h4.2)

theorem keyBefore_of {k j : Key} (h : keyLe k j = true) : KeyBefore k j := by
  unfold keyLe lexLe at h
  by_cases e : k.1 = j.1
  · rw [if_pos e] at h
    exact Or.inr ⟨congrArg _ e, Or.inr ⟨e, h⟩⟩
  · rw [if_neg e] at h
    unfold lenLe lexLe natLe at h
    simp only at h
    by_cases e2 : k.1.length = j.1.length
    · rw [if_pos e2] at h
      exact Or.inr ⟨e2, Or.inl ⟨e, h⟩⟩
    · rw [if_neg e2, decide_eq_true_eq] at h
      exact Or.inl (by omega)

theorem Over.unique {s : State} {now : Nat} {k : Key} {e f : Nat} (h1 : Over s now k e) (h2 : Over s now k f) : e = f := by
  obtain ⟨a, ha, he, _⟩ := h1
  obtain ⟨b, hb, hf, _⟩ := h2
  rw [ha] at hb
  cases hb
  rw [he] at hf
  cases hf
  rfl

/-- It is determined whose turn it is. -/
theorem Spec.Turn.same {s : State} {now : Nat} {L D : List Key} (hL : Turn s now L) (hD : Turn s now D) : ∀ k ∈ D, k ∈ L := by
  intro k hk
  refine Decidable.byContradiction fun hn => ?_
  by_cases hsub : ∀ j ∈ L, j ∈ D
  · have h1 : (k :: L).Nodup := List.nodup_cons.mpr ⟨hn, hL.nodup⟩
    have h2 := List.Nodup.length_le_of_subset h1 (l₂ := D) (fun x hx => by
      rcases List.mem_cons.mp hx with rfl | hx
      · exact hk
      · exact hsub x hx)
    have := hL.many
    have := hD.many
    rw [List.length_cons] at h2
    omega
  · obtain ⟨j, hj⟩ := Classical.not_forall.mp hsub
    obtain ⟨hj, hjD⟩ := Classical.not_imp.mp hj
    obtain ⟨e, he⟩ := hD.over k hk
    obtain ⟨f, hf⟩ := hL.over j hj
    have h1 := hD.first k hk j hjD e f he hf
    have h2 := hL.first j hj k hn f e hf he
    rcases h1 with h1 | ⟨h1, h3⟩ <;> rcases h2 with h2 | ⟨h2, h4⟩
    · omega
    · omega
    · omega
    · exact hn (keyBefore_anti h3 h4 ▸ hj)

/-- The auctions that the hook takes up. -/
theorem due_turn {s : State} {ctx : Ctx} (hw : WF p me s) (ht : ctx.time < 2^64)
    (hshort : ∀ k a, s.auctions.get? k = some a → k.1.length < 65536) : Turn s ctx.time ((dueAuctions ctx s).map Auction.key) := by
  have ht' : ctx.time ≤ U64MAX := Nat.le_of_lt_succ ht
  have hst := due_stored (ctx := ctx) hw
  refine ⟨hst.2, ?_, ?_, ?_⟩
  · intro k hk
    obtain ⟨a, ha, rfl⟩ := List.mem_map.mp hk
    obtain ⟨e, he, hle⟩ := due_secs ht' ha
    exact ⟨e, a, hst.1 a ha, he, hle⟩
  · rw [due_eq, List.length_map, List.length_map, List.length_take, allDue_length ht']
  · rintro k hk j hj e f ⟨a, ha, he, hle⟩ ⟨b, hb', hf, hlf⟩
    obtain ⟨y, hy1, hy2⟩ := (due_iff hw hb' hf).mpr hlf
    obtain ⟨x', hx1, hx2⟩ := List.mem_map.mp hk
    rw [due_eq] at hx1
    obtain ⟨x, hx3, hx4⟩ := List.mem_map.mp hx1
    have hsort : (allDue ctx s).Pairwise (fun a b => pkLe a.1 b.1 = true) := scan_sorted pkLe_total pkLe_trans _ _ _
    rw [← List.take_append_drop (s.config.maxSettle % 2^32) (allDue ctx s)] at hsort hy1
    rcases List.mem_append.mp hy1 with hy1 | hy1
    · exfalso
      apply hj
      rw [due_eq, List.map_map]
      exact List.mem_map.mpr ⟨y, hy1, hy2⟩
    · have hxy := (List.pairwise_append.mp hsort).2.2 x hx3 y hy1
      obtain ⟨k1, i1, i2, _⟩ := mem_allDue.mp (List.mem_of_mem_take hx3)
      obtain ⟨k2, j1, j2, _⟩ := mem_allDue.mp (List.mem_of_mem_drop hy1)
      have hk1 : k1 = k := by rw [← (hw.auctions _ _ i1).key, hx4, hx2]
      have hk2 : k2 = j := by rw [← (hw.auctions _ _ j1).key, hy2]
      subst hk1; subst hk2
      rw [ha] at i1; rw [hb'] at j1
      have i1 := Option.some.inj i1
      have j1 := Option.some.inj j1
      rw [i2, j2, ← i1, ← j1] at hxy
      unfold Auction.endKey at hxy
      rw [he, hf] at hxy
      change pkLe (sec e, _) (sec f, _) = true at hxy
      have hn : secs ctx.time < 2^64 := Nat.lt_of_le_of_lt (Nat.div_le_self _ _) ht
      rw [((C85_key_order (hshort _ _ ha) (hshort _ _ hb')).2.2 _ _ (Nat.lt_of_le_of_lt hle hn) (Nat.lt_of_le_of_lt hlf hn)).2] at hxy
      unfold lexLe natLe at hxy
      simp only at hxy
      by_cases h : sec e = sec f
      · rw [if_pos h] at hxy
        exact Or.inr ⟨h, keyBefore_of hxy⟩
      · rw [if_neg h, decide_eq_true_eq] at hxy
        exact Or.inl (Nat.lt_of_le_of_ne hxy h)

/-- The hook succeeds if and only if each of these can be settled. -/
theorem endBlock_iff {s : State} {ctx : Ctx} (hr : Reach p me s) (ht : ctx.time < 2^64) :
    (∃ r, sudo p ctx .endBlock s = .ok r) ↔ ∀ k ∈ (dueAuctions ctx s).map Auction.key, Accepts p ctx s ctx.self [] (.settle k.1 k.2) := by
  have hw := hr.wf
  have ht' : ctx.time ≤ U64MAX := Nat.le_of_lt_succ ht
  have hst := due_stored (ctx := ctx) hw
  have key : ∀ a ∈ dueAuctions ctx s, Accepts p ctx s ctx.self [] (.settle a.key.1 a.key.2) ↔
      ∃ s' ms, Settled p ctx a s.config s.windows s s' ms := by
    intro a ha
    rw [← C160_auction hr ⟨by simp, by simp⟩ (.settle a.key.1 a.key.2)]
    have hg := hw.auctions _ _ (hst.1 a ha)
    exact settleable_iff (hst.1 a ha) hg.valid
  constructor
  · rintro ⟨⟨s', ms⟩, h⟩ k hk
    obtain ⟨a, ha, rfl⟩ := List.mem_map.mp hk
    cases sudo_eff h with
    | stop earliest s1 _ _ _ hb =>
      obtain ⟨t, t', m1, x1, _⟩ := hb.mem hst a ha
      obtain ⟨t2, x2⟩ := x1.move s
      exact (key a ha).mpr ⟨t2, m1, x2⟩
  · intro h
    obtain ⟨s', ms, hb⟩ := batch_all (p := p) (ctx := ctx) (c := s.config) (ws := s.windows) (as := dueAuctions ctx s) s (fun a ha => by
      obtain ⟨s', ms, x⟩ := (key a ha).mp (h _ (List.mem_map_of_mem ha))
      exact ⟨s, s', ms, x⟩)
    obtain ⟨ws, hx⟩ := endBlock_of ht' hb
    exact ⟨_, hx⟩

/-- In every reachable state a governance call or block hook succeeds if and only if it is one of those the specification lists. -/
theorem C161_auction {s : State} {ctx : Ctx} (hr : Reach p me s) (ht : ctx.time < 2^64)
    (hshort : ∀ k a, s.auctions.get? k = some a → k.1.length < 65536) (m : Sudo) :
    (∃ r, sudo p ctx m s = .ok r) ↔ GovAccepts p ctx s m := by
  have e1 : U64MAX = 2^64 - 1 := rfl
  cases m with
  | beginBlock =>
    simp only [sudo, beginBlock, GovAccepts]
    rw [ok_exists]
    simp only [subChk_ok, ok_exists]
    change (∃ y, (s.prevBlock ≤ sec ctx.time ∧ _ = y) ∧ _) ↔ _
    constructor
    · rintro ⟨y, ⟨h1, rfl⟩, ws, hws, _⟩
      refine ⟨h1, fun h2 h3 => ?_⟩
      have h4 : 0 < s.prevBlock ∧ s.config.haltThreshold ≤ sec ctx.time - s.prevBlock := ⟨h2, by omega⟩
      change (if 0 < s.prevBlock ∧ s.config.haltThreshold ≤ sec ctx.time - s.prevBlock then _ else _) = _ at hws
      rw [if_pos h4, bind_ok] at hws
      obtain ⟨_, h5, _⟩ := hws
      have := (u64_ok.mp h5).1
      change sec ctx.time + _ ≤ _ at this
      omega
    · rintro ⟨h1, h2⟩
      refine ⟨_, ⟨h1, rfl⟩, ?_⟩
      by_cases h4 : 0 < s.prevBlock ∧ s.config.haltThreshold ≤ sec ctx.time - s.prevBlock
      · have h5 := h2 h4.1 (by omega)
        refine ⟨s.windows ++ [⟨s.prevBlock, sec ctx.time + s.config.haltBuffer⟩], ?_, _, rfl⟩
        change (if 0 < s.prevBlock ∧ s.config.haltThreshold ≤ sec ctx.time - s.prevBlock then _ else _) = _
        rw [if_pos h4, bind_ok]
        exact ⟨_, u64_ok.mpr ⟨by change sec ctx.time + _ ≤ _; omega, rfl⟩, rfl⟩
      · exact ⟨_, if_neg h4, _, rfl⟩
  | endBlock =>
    rw [endBlock_iff hr ht]
    have hD := due_turn (ctx := ctx) hr.wf ht hshort
    constructor
    · intro h; exact ⟨_, hD, h⟩
    · rintro ⟨L, hL, h⟩ k hk; exact h k (hL.same hD k hk)
  | updateParams u =>
    simp only [sudo, updateParams, GovAccepts]
    obtain ⟨c1, c2, c3, c4⟩ := sound_iff.mp hr.wf.config
    have hs : ∀ fb, Sound { s.config with
      fairBurn := fb
      tradingFee := u.tradingFee.getD s.config.tradingFee
      minBidIncrement := u.minBidIncrement.getD s.config.minBidIncrement
      minDuration := u.minDuration.getD s.config.minDuration
      extendDuration := u.extendDuration.getD s.config.extendDuration
      createFee := u.createFee.getD s.config.createFee
      maxSettle := u.maxSettle.getD s.config.maxSettle
      haltThreshold := u.haltThreshold.getD s.config.haltThreshold
      haltBuffer := u.haltBuffer.getD s.config.haltBuffer
      haltPostpone := u.haltPostpone.getD s.config.haltPostpone } ↔
      (∀ n, u.minBidIncrement = some n → 0 < n ∧ n < 10^18) ∧
        (∀ n, u.minDuration = some n → 0 < n) ∧ (∀ n, u.extendDuration = some n → 0 < n) := by
      intro fb
      rw [← getD_iff (P := fun n => 0 < n ∧ n < 10^18) (d := s.config.minBidIncrement) ⟨c1, c2⟩,
        ← getD_iff (P := fun n => 0 < n) (d := s.config.minDuration) c3, ← getD_iff (P := fun n => 0 < n) (d := s.config.extendDuration) c4]
      simp only [Sound, and_assoc]
    rw [ok_exists]
    simp only [unit_iff sound_iff, done_iff, hs]
    cases hf : u.fairBurn with
    | none =>
      constructor
      · rintro ⟨_, _, h⟩; exact ⟨fun x hx => (by cases hx), h⟩
      · rintro ⟨_, h⟩; exact ⟨_, rfl, h⟩
    | some a =>
      simp only [addrValidate_ok]
      constructor
      · rintro ⟨_, ⟨h1, _⟩, h⟩; exact ⟨fun x hx => (by cases hx; exact h1), h⟩
      · rintro ⟨h1, h⟩; exact ⟨a, ⟨h1 a rfl, rfl⟩, h⟩
  | setMinReserve cs =>
    simp only [sudo, GovAccepts]
    rw [ok_exists, ← setMin_iff]
    exact ⟨fun ⟨y, h, _⟩ => ⟨y, h⟩, fun ⟨y, h⟩ => ⟨y, h, _, rfl⟩⟩
  | unsetMinReserve ds =>
    simp only [sudo, GovAccepts]
    rw [ok_exists, ← unsetMin_iff]
    exact ⟨fun ⟨y, h, _⟩ => ⟨y, h⟩, fun ⟨y, h⟩ => ⟨y, h, _, rfl⟩⟩

/-- A deployment succeeds if and only if the settings are sound, the fair burn address well-formed and no denom is listed twice. -/
theorem C161_auction_deploy {c : Config} {mins : List Coin} :
    (∃ s, instantiate p c mins = .ok s) ↔ p.valid c.fairBurn = true ∧ Sound c ∧ (mins.map Coin.denom).Nodup := by
  have h0 : (mins.map Coin.denom).Nodup ↔ ∃ m', setMinReserve mins .empty = .ok m' := by
    rw [setMin_iff]; exact ⟨fun h => ⟨h, fun _ _ => rfl⟩, fun h => h.1⟩
  rw [h0, ← sound_iff]
  unfold instantiate
  simp only [bind_ok, addrValidate_ok]
  constructor
  · rintro ⟨_, _, ⟨h1, _⟩, _, h2, m, h3, _⟩; exact ⟨h1, h2, m, h3⟩
  · rintro ⟨h1, h2, m, h3⟩; exact ⟨_, _, ⟨h1, rfl⟩, (), h2, m, h3, rfl⟩

namespace Sample
theorem short4 : ∀ k a, t4.auctions.get? k = some a → k.1.length < 65536 := by
  intro k a h
  have h1 : ∀ x ∈ t4.auctions.l, x.1.1.length < 65536 := by decide +kernel
  exact h1 (k, a) (AMap.mem_iff.mpr h)

/-- three tokens are over, two are settled -/
example := (C161_auction rt4 (by decide) short4 .endBlock).mp ⟨_, srun_eq (c := ctx 1060000) (by decide +kernel)⟩
/-- half a second before the end, within the second in which the first auction ends, the hook fails -/
def gov1 : State := (run (ctx 1000500) bob [⟨ust, 100⟩] (.bid coll tok) s2).1
theorem rgov1 : Reach P self gov1 := next r2 (by decide +kernel) rfl (by decide)
theorem shortgov1 : ∀ k a, gov1.auctions.get? k = some a → k.1.length < 65536 := by
  intro k a h
  have h1 : ∀ x ∈ gov1.auctions.l, x.1.1.length < 65536 := by decide +kernel
  exact h1 (k, a) (AMap.mem_iff.mpr h)
example : ¬ GovAccepts P (ctx 1060000) gov1 .endBlock := by
  rw [← C161_auction rgov1 (by decide) shortgov1 .endBlock]
  exact sfail (by decide +kernel)
example := (C161_auction rt4 (by decide) short4 (.setMinReserve [⟨[118], 7⟩])).mp ⟨_, srun_eq (c := ctx 1060000) (by decide +kernel)⟩
example : ¬ GovAccepts P (ctx 1060000) t4 (.setMinReserve [⟨ust, 7⟩]) := by
  rw [← C161_auction rt4 (by decide) short4]
  exact sfail (by decide +kernel)
example : GovAccepts P (ctx 1060000) t4 (.updateParams { minBidIncrement := some 7 }) :=
  ⟨fun _ h => (by cases h), fun _ h => (by cases h; decide), fun _ h => (by cases h), fun _ h => (by cases h)⟩
example : ¬ Sound { cfg with minBidIncrement := 10^18 } := fun h => absurd h.2.1 (by decide)
example := C161_auction_deploy.mp ⟨_, init0⟩
end Sample

end
end Verif.Auction

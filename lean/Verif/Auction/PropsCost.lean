/-
Reserve auction: what it costs to keep an auction open (C135).
-/
import Verif.Auction.PropsClock

namespace Verif.Auction
open Verif Spec

section
variable {p : Params} {me : Addr}

/-! ### Specification -/

/-- How far auction `a` of token `k` can have been prolonged, and what that has cost, after `l` has happened since it was opened. -/
structure Spec.Cost (k : Key) (a : Auction) (l : List (Nat × Act)) : Prop where
  /-- without halts of the chain, every bid but the first adds at most the longest extension that was configured -/
  time : ∀ E, (∀ z ∈ l, z.2.before.config.extendDuration ≤ E) → (∀ z ∈ l, ¬ Postpones k z) → ∀ f e, a.firstBid = some f →
    a.endTime = some e → e ≤ f + (a.duration + ((offerTimes k l).length - 1) * E) * 1000000000
  /-- every bid but the first multiplies the price by one plus the lowest increment that was configured (in units of 10^-18) -/
  price : ∀ I, (∀ z ∈ l, I ≤ z.2.before.config.minBidIncrement) → ∀ h, a.highBid = some h →
    a.reserve.amount * (10^18 + I) ^ ((offerTimes k l).length - 1) ≤ h.coin.amount * (10^18) ^ ((offerTimes k l).length - 1)
  /-- and adds one unit at least -/
  unit : ∀ h, a.highBid = some h → a.reserve.amount + ((offerTimes k l).length - 1) ≤ h.coin.amount
  bids : a.highBid ≠ none ↔ offerTimes k l ≠ []

/-! ### Lemmas -/

/-- What a step does to the price and the clock of an auction that stays open. -/
inductive Pace (k : Key) (z : Nat × Act) (a b : Auction) : Prop where
  | same (ho : offerBy k z.2.deed = none) (hf : b.firstBid = a.firstBid) (he : b.endTime = a.endTime) (hh : b.highBid = a.highBid)
      (hr : a.highBid ≠ none → b.reserve = a.reserve)
  | first (y : HighBid) (ho : offerBy k z.2.deed ≠ none) (hn : a.highBid = none) (hf : b.firstBid = some z.1)
      (he : b.endTime = some (z.1 + b.duration * 1000000000)) (hh : b.highBid = some y) (hle : b.reserve.amount ≤ y.coin.amount)
  | later (x y : HighBid) (e e' : Nat) (ho : offerBy k z.2.deed ≠ none) (hx : a.highBid = some x) (hy : b.highBid = some y)
      (hr : b.reserve = a.reserve) (hlt : x.coin.amount < y.coin.amount)
      (hup : x.coin.amount * (10^18 + z.2.before.config.minBidIncrement) ≤ y.coin.amount * 10^18)
      (hf : b.firstBid = a.firstBid) (ha : a.endTime = some e) (hb : b.endTime = some e')
      (he : e' ≤ e + z.2.before.config.extendDuration * 1000000000)
  | postponed (ho : offerBy k z.2.deed = none) (hp : Postpones k z) (hh : b.highBid = a.highBid) (hr : b.reserve = a.reserve)

theorem raised_up (n i : Nat) : n * (10^18 + i) ≤ raised n i * 10^18 := by
  unfold raised
  have := Nat.div_add_mod (n * (10^18 + i) + (10^18 - 1)) (10^18)
  have := Nat.mod_lt (n * (10^18 + i) + (10^18 - 1)) (show 0 < 10^18 by decide)
  omega

theorem Spec.Cost.pace {k : Key} {a b : Auction} {l : List (Nat × Act)} {z : Nat × Act} (h : Cost k a l) (hd : b.duration = a.duration)
    (t : Pace k z a b) : Cost k b (z :: l) := by
  have hB0 : offerBy k z.2.deed = none → offerTimes k (z :: l) = offerTimes k l := by intro h; simp [offerTimes, h]
  have hB1 : offerBy k z.2.deed ≠ none → offerTimes k (z :: l) = z.1 :: offerTimes k l := by
    intro h
    obtain ⟨o, ho⟩ := Option.ne_none_iff_exists'.mp h
    simp [offerTimes, ho]
  have hl : ∀ {P : Nat × Act → Prop}, (∀ y ∈ z :: l, P y) → P z ∧ ∀ y ∈ l, P y :=
    fun h => ⟨h z List.mem_cons_self, fun y hy => h y (List.mem_cons_of_mem _ hy)⟩
  cases t with
  | same ho hf he hh hr =>
    have hr' : ∀ v, b.highBid = some v → b.reserve = a.reserve := fun v hv => hr (by rw [← hh, hv]; simp)
    refine ⟨?_, ?_, ?_, by rw [hB0 ho, hh]; exact h.bids⟩
    · rw [hB0 ho, hf, he, hd]
      intro E h1 h2
      exact h.time E (hl h1).2 (hl h2).2
    · rw [hB0 ho]
      intro I h1 v hv
      rw [hr' v hv]
      exact h.price I (hl h1).2 v (hh ▸ hv)
    · rw [hB0 ho]
      intro v hv
      rw [hr' v hv]
      exact h.unit v (hh ▸ hv)
  | first y ho hn hf he hh hle =>
    have hnil : offerTimes k l = [] := by
      apply Classical.byContradiction; intro hne; exact h.bids.mpr hne hn
    refine ⟨?_, ?_, ?_, by rw [hB1 ho, hh]; simp⟩
    · intro E _ _ f e h1 h2
      rw [hf] at h1; rw [he] at h2; cases h1; cases h2
      rw [hB1 ho, hnil]; simp
    · intro I _ v hv
      rw [hh] at hv; cases hv
      rw [hB1 ho, hnil]; simpa using hle
    · intro v hv
      rw [hh] at hv; cases hv
      rw [hB1 ho, hnil]; simpa using hle
  | later x y e e' ho hx hy hr hlt hup hf ha hb he =>
    have hne : offerTimes k l ≠ [] := h.bids.mp (by rw [hx]; simp)
    have hlen : (offerTimes k (z :: l)).length - 1 = ((offerTimes k l).length - 1) + 1 := by
      rw [hB1 ho]
      have := List.length_pos_iff.mpr hne
      simp only [List.length_cons]; omega
    refine ⟨?_, ?_, ?_, by rw [hB1 ho, hy]; simp⟩
    · intro E h1 h2 f e1 h3 h4
      rw [hb] at h4; cases h4
      have h5 := h.time E (hl h1).2 (hl h2).2 f e (hf ▸ h3) ha
      have h6 := (hl h1).1
      rw [hlen, hd, Nat.add_mul _ 1]
      omega
    · intro I h1 v hv
      rw [hy] at hv; cases hv
      rw [hlen, hr, Nat.pow_succ, Nat.pow_succ]
      have h5 := h.price I (hl h1).2 x hx
      have h6 : x.coin.amount * (10^18 + I) ≤ y.coin.amount * 10^18 :=
        Nat.le_trans (Nat.mul_le_mul_left _ (Nat.add_le_add_left (hl h1).1 _)) hup
      generalize (offerTimes k l).length - 1 = n at h5
      calc a.reserve.amount * ((10^18 + I) ^ n * (10^18 + I)) = (a.reserve.amount * (10^18 + I) ^ n) * (10^18 + I) := by
            rw [Nat.mul_assoc]
        _ ≤ (x.coin.amount * (10^18) ^ n) * (10^18 + I) := Nat.mul_le_mul_right _ h5
        _ = (x.coin.amount * (10^18 + I)) * (10^18) ^ n := by rw [Nat.mul_right_comm]
        _ ≤ (y.coin.amount * 10^18) * (10^18) ^ n := Nat.mul_le_mul_right _ h6
        _ = y.coin.amount * ((10^18) ^ n * 10^18) := by rw [Nat.mul_assoc, Nat.mul_comm (10^18)]
    · intro v hv
      rw [hy] at hv; cases hv
      have := h.unit x hx
      rw [hlen, hr]; omega
  | postponed ho hp hh hr =>
    refine ⟨?_, ?_, ?_, by rw [hB0 ho, hh]; exact h.bids⟩
    · intro E _ h2
      exact absurd hp (hl h2).1
    · rw [hB0 ho, hr, hh]
      intro I h1
      exact h.price I (hl h1).2
    · rw [hB0 ho, hr, hh]
      exact h.unit

theorem pace_sudo {ctx : Ctx} {m : Sudo} {s s' : State} {msgs : List Msg} (hw : WF p me s) (h : sudo p ctx m s = .ok (s', msgs))
    {k : Key} {b : Auction} (hb : s'.auctions.get? k = some b) :
    ∃ a, s.auctions.get? k = some a ∧ b.duration = a.duration ∧ Pace k (ctx.time, ⟨s, .sudo m, s', msgs⟩) a b := by
  obtain ⟨a, h1, h2, h3⟩ := turn_sudo hw h hb
  obtain ⟨a', h4, h5⟩ := sudo_kept hw h hb
  obtain rfl : a = a' := Option.some.inj (h1.symm.trans h4)
  obtain ⟨_, _, _, k1, k2⟩ := h5
  refine ⟨a, h1, h2, ?_⟩
  cases h3 with
  | same hb hf he => exact .same hb hf he k2 (fun _ => k1)
  | first hb => exact absurd rfl hb
  | later _ _ hb => exact absurd rfl hb.1
  | postponed _ _ hb hp => exact .postponed hb hp k2 k1

theorem pace_call {ctx : Ctx} {sender : Addr} {funds : List Coin} {m : Exec} {s s' : State} {msgs : List Msg} (hr : Reach p me s)
    (hx : execute p ctx sender funds m s = .ok (s', msgs)) {k : Key} {b : Auction} (hb : s'.auctions.get? k = some b) :
    (s.auctions.get? k = none ∧ b.firstBid = none ∧ b.endTime = none ∧ b.highBid = none) ∨
    ∃ a, s.auctions.get? k = some a ∧ b.duration = a.duration ∧ Pace k (ctx.time, ⟨s, .call sender funds m, s', msgs⟩) a b := by
  have hw := hr.wf
  have same : ∀ {a : Auction}, s.auctions.get? k = some a → b.duration = a.duration → b.firstBid = a.firstBid → b.endTime = a.endTime →
      b.highBid = a.highBid → (a.highBid ≠ none → b.reserve = a.reserve) → offerBy k (.call sender funds m) = none →
      (s.auctions.get? k = none ∧ b.firstBid = none ∧ b.endTime = none ∧ b.highBid = none) ∨
      ∃ a, s.auctions.get? k = some a ∧ b.duration = a.duration ∧ Pace k (ctx.time, ⟨s, .call sender funds m, s', msgs⟩) a b :=
    fun h h1 h2 h3 h4 h5 h6 => .inr ⟨_, h, h1, .same h6 h2 h3 h4 h5⟩
  have still : s.auctions.get? k = some b → offerBy k (.call sender funds m) = none →
      (s.auctions.get? k = none ∧ b.firstBid = none ∧ b.endTime = none ∧ b.highBid = none) ∨
      ∃ a, s.auctions.get? k = some a ∧ b.duration = a.duration ∧ Pace k (ctx.time, ⟨s, .call sender funds m, s', msgs⟩) a b :=
    fun h ho => same h rfl rfl rfl rfl (fun _ => rfl) ho
  cases execute_eff hx with
  | create coll tok r dur rec min hv hrec hown happ hno =>
    rcases ins_cases hb with ⟨rfl, rfl⟩ | ⟨_, h⟩
    · exact .inl ⟨hno, rfl, rfl, rfl⟩
    · exact still h rfl
  | reserve coll tok r x min hv hf hx' hs hfb =>
    have hg := hw.auctions _ _ hx'
    rcases ins_cases hb with ⟨e, rfl⟩ | ⟨_, h⟩
    · rw [hg.key] at e; subst e
      exact same hx' rfl rfl rfl rfl (fun hn => absurd (hg.high.mpr (hg.first.mp hfb)) hn) rfl
    · exact still h rfl
  | cancel coll tok x hv hf hx' hs hfb =>
    dsimp only at hb
    rw [AMap.get?_erase] at hb
    split at hb
    · cases hb
    · exact still hb rfl
  | settle coll tok x _ _ hv hf hx' hset =>
    have hg := hw.auctions _ _ hx'
    by_cases e : k = x.key
    · cases hset with
      | postponed e1 e' he hle hin hov he' =>
        subst e
        rw [AMap.get?_insert_self] at hb
        cases hb
        rw [hg.key] at *
        exact .inr ⟨x, hx', rfl, .postponed rfl ⟨.inr ⟨sender, by rw [hf]⟩, x, e1, hx', he, hle, halted_of hin⟩ rfl rfl⟩
      | sold => subst e; rw [AMap.get?_erase_self] at hb; cases hb
    · rw [hset.frame.2.2.2.2 k e] at hb
      exact still hb rfl
  | bid1 coll tok x n m e hv hx' hs hfunds hpos hm hge hend hfb hov he =>
    have hg := hw.auctions _ _ hx'
    rcases ins_cases hb with ⟨e1, rfl⟩ | ⟨e1, h⟩
    · rw [hg.key] at e1; subst e1
      have hn : x.highBid = none := hg.high.mpr (hg.first.mp hfb)
      refine .inr ⟨x, hx', rfl, .first _ (by simp [offerBy]) hn rfl (by rw [he]; rfl) rfl ?_⟩
      rw [← minBid_none hm hn]; exact hge
    · rw [hg.key] at e1
      exact still h (by simp [offerBy, e1])
  | bid2 coll tok x n m f e e' h hv hx' hs hfunds hpos hm hge hend hfb hh hz he he' =>
    have hg := hw.auctions _ _ hx'
    rcases ins_cases hb with ⟨e1, rfl⟩ | ⟨e1, h⟩
    · rw [hg.key] at e1; subst e1
      obtain ⟨a0, b0, n0, g1, g2, g3, g4, g5, g6⟩ := C28_min hr hx
      obtain rfl : x = a0 := Option.some.inj (hx'.symm.trans g1)
      obtain ⟨_, k2, k3⟩ := g6 h hh
      obtain rfl : n = n0 := by rw [hfunds] at g3; injection g3 with h1 _; injection h1
      refine .inr ⟨x, hx', rfl, .later h _ e e' (by simp [offerBy]) hh rfl rfl k3 ?_ hfb.symm he rfl ?_⟩
      · exact Nat.le_trans (raised_up _ _) (Nat.mul_le_mul_right _ k2)
      · dsimp only
        unfold secs NS at *
        split at he' <;> omega
    · rw [hg.key] at e1
      exact still h (by simp [offerBy, e1])

/-- There is only one call that opened the auction. -/
theorem opened_unique {k : Key} {l1 l2 m1 m2 : List (Nat × Act)} {x y : Nat × Act} (h1 : Opened k l1 x) (h2 : Opened k m1 y)
    (e : l1 ++ x :: l2 = m1 ++ y :: m2) : l1 = m1 := by
  induction l1 generalizing m1 with
  | nil =>
    cases m1 with
    | nil => rfl
    | cons z m1 =>
      injection e with e1 _
      subst e1
      exact absurd h1.1 (h2.2.2 _ List.mem_cons_self).1
  | cons z l1 ih =>
    cases m1 with
    | nil =>
      injection e with e1 _
      subst e1
      exact absurd h2.1 (h1.2.2 _ List.mem_cons_self).1
    | cons w m1 =>
      injection e with e1 e2
      subst e1
      rw [ih ⟨h1.1, h1.2.1, fun v hv => h1.2.2 v (List.mem_cons_of_mem _ hv)⟩
        ⟨h2.1, h2.2.1, fun v hv => h2.2.2 v (List.mem_cons_of_mem _ hv)⟩ e2]

/-! ### Properties -/

/-- Every open auction: how far it can have been prolonged by bids, and the price that these bids have reached. -/
theorem C135_open {c : Config} {mins : List Coin} {s0 s : State} {l : List (Nat × Act)} (hi : instantiate p c mins = .ok s0)
    (h : Clocked p me s0 l s) {k : Key} {a : Auction} (ha : s.auctions.get? k = some a) :
    ∃ l1 x l2, l = l1 ++ x :: l2 ∧ Opened k l1 x ∧ Clock k a l1 ∧ Cost k a l1 := by
  suffices H : ∃ l1 x l2, l = l1 ++ x :: l2 ∧ Opened k l1 x ∧ Cost k a l1 by
    obtain ⟨l1, x, l2, e, ho, hc⟩ := H
    obtain ⟨l1', x', l2', e', ho', hc'⟩ := C134_open hi h ha
    obtain rfl : l1 = l1' := opened_unique ho ho' (e.symm.trans e')
    exact ⟨l1, x, l2, e, ho, hc', hc⟩
  induction h generalizing a with
  | nil => rw [init_empty hi] at ha; simp at ha
  | @call l s s' ctx sender funds m msgs hd hself hne hx ih =>
    rcases pace_call (hd.reach hi) hx ha with ⟨h1, h2, h3, h4⟩ | ⟨a0, h0, h1, h2⟩
    · refine ⟨[], _, l, rfl, ⟨h1, by dsimp only; rw [ha]; simp, by simp⟩, ?_⟩
      exact ⟨by rw [h2]; simp, by rw [h4]; simp, by rw [h4]; simp, by rw [h4]; simp [Spec.offerTimes]⟩
    · obtain ⟨l1, x, l2, e, ⟨o1, o2, o3⟩, hc⟩ := ih h0
      refine ⟨_ :: l1, x, l2, by rw [e]; rfl, ⟨o1, o2, ?_⟩, hc.pace h1 h2⟩
      intro z hz
      rcases List.mem_cons.mp hz with rfl | hz
      · exact ⟨by dsimp only; rw [h0]; simp, by dsimp only; rw [ha]; simp⟩
      · exact o3 z hz
  | @sudo l s s' ctx m msgs hd hself hx ih =>
    obtain ⟨a0, h0, h1, h2⟩ := pace_sudo (hd.reach hi).wf hx ha
    obtain ⟨l1, x, l2, e, ⟨o1, o2, o3⟩, hc⟩ := ih h0
    refine ⟨_ :: l1, x, l2, by rw [e]; rfl, ⟨o1, o2, ?_⟩, hc.pace h1 h2⟩
    intro z hz
    rcases List.mem_cons.mp hz with rfl | hz
    · exact ⟨by dsimp only; rw [h0]; simp, by dsimp only; rw [ha]; simp⟩
    · exact o3 z hz

/-- Keeping an auction open by bids costs geometrically: if there was no halt of the chain, the extension was at most `E` seconds and the
increment at least `I` whenever something was called since the auction was opened, and the auction now ends more than `m` extensions
after its duration has run out, then the high bid is at least the reserve price times `(1 + I) ^ (m + 1)`. -/
theorem C135_prolonged {c : Config} {mins : List Coin} {s0 s : State} {l : List (Nat × Act)} (hi : instantiate p c mins = .ok s0)
    (h : Clocked p me s0 l s) {k : Key} {a : Auction} (ha : s.auctions.get? k = some a) {E I m f e : Nat}
    (hE : ∀ z ∈ l, z.2.before.config.extendDuration ≤ E) (hI : ∀ z ∈ l, I ≤ z.2.before.config.minBidIncrement)
    (hp : ∀ z ∈ l, ¬ Postpones k z) (hf : a.firstBid = some f) (he : a.endTime = some e)
    (hm : f + (a.duration + m * E) * 1000000000 < e) :
    ∃ b, a.highBid = some b ∧ a.reserve.amount * (10^18 + I) ^ (m + 1) ≤ b.coin.amount * (10^18) ^ (m + 1) ∧
      a.reserve.amount + (m + 1) ≤ b.coin.amount := by
  obtain ⟨l1, x, l2, el, _, _, hc⟩ := C135_open hi h ha
  have hin : ∀ z ∈ l1, z ∈ l := fun z hz => by rw [el]; exact List.mem_append_left _ hz
  have hg := (h.reach hi).wf.auctions _ _ ha
  cases hb : a.highBid with
  | none => rw [hg.high.mp hb] at he; cases he
  | some b =>
    refine ⟨b, rfl, ?_⟩
    have h1 := hc.time E (fun z hz => hE z (hin z hz)) (fun z hz => hp z (hin z hz)) f e hf he
    have h2 := hc.price I (fun z hz => hI z (hin z hz)) b hb
    have h3 := hc.unit b hb
    generalize (offerTimes k l1).length - 1 = n at *
    have hlt : m < n := by
      apply Classical.byContradiction
      intro hle
      have := Nat.mul_le_mul_right E (Nat.le_of_not_lt hle)
      omega
    obtain ⟨d, rfl⟩ : ∃ d, n = (m + 1) + d := ⟨n - (m + 1), by omega⟩
    refine ⟨?_, by omega⟩
    rw [Nat.pow_add, Nat.pow_add (10^18)] at h2
    have hpos : 0 < (10^18) ^ d := Nat.pow_pos (by decide)
    refine Nat.le_of_mul_le_mul_right ?_ hpos
    refine Nat.le_trans ?_ (Nat.le_trans h2 (Nat.le_of_eq (Nat.mul_assoc _ _ _).symm))
    rw [Nat.mul_assoc]
    exact Nat.mul_le_mul_left _ (Nat.mul_le_mul_left _ (Nat.pow_le_pow_left (Nat.le_add_right _ _) d))

namespace Sample
/-- The second bid of the sample prolonged the auction beyond its 60 seconds; the high bid is 120, and 105 was the least possible. -/
example {a : Auction} {f e : Nat} (h : s4.auctions.get? (coll, tok) = some a) (hf : a.firstBid = some f) (he : a.endTime = some e)
    (hm : f + (a.duration + 0 * 30) * 1000000000 < e) (hp : ∀ z ∈ clock4, ¬ Postpones (coll, tok) z) :=
  C135_prolonged (m := 0) init0 clock4_ok h (E := 30) (I := 50000000000000000) (by decide +kernel) (by decide +kernel) hp hf he hm
example : (s4.auctions.get? (coll, tok)).map (fun a => (a.firstBid, a.endTime, a.duration, a.reserve.amount, a.highBid.map (·.coin.amount)))
    = some (some 1000000000000, some 1070500000000, 60, 100, some 120) := by decide +kernel
example : ∀ z ∈ clock4, ¬ Postpones (coll, tok) z := by
  intro z hz
  rintro ⟨_, v, e, _, _, _, w, hw, _⟩
  have : ∀ z ∈ clock4, z.2.before.windows = [] := by decide +kernel
  rw [this z hz] at hw
  cases hw
end Sample

end
end Verif.Auction

/-
Reserve auction: the history of an open auction goes back to its seller and its bidders; the winner made the highest of all its bids (C131).
-/
import Verif.Auction.PropsPurse
import Verif.Auction.PropsLife

namespace Verif.Auction
open Verif Spec

section
variable {p : Params} {me : Addr}

/-! ### Specification -/

/-- The bid on token `k` made by a call: who and what was attached. -/
def Spec.offerBy (k : Key) : Deed → Option (Addr × List Coin)
  | .call who funds (.bid c t) => if (c, t) = k then some (who, funds) else none
  | _ => none

/-- The change of the reserve price of token `k` asked for by a call. -/
def Spec.repriceBy (k : Key) : Deed → Option (Addr × Coin)
  | .call who _ (.updateReserve c t r) => if (c, t) = k then some (who, r) else none
  | _ => none

/-- All bids on token `k`, and all changes of its reserve price, latest first. -/
def Spec.bidsOn (k : Key) (l : List Act) : List (Addr × List Coin) := l.filterMap (fun y => offerBy k y.deed)
def Spec.repriced (k : Key) (l : List Act) : List (Addr × Coin) := l.filterMap (fun y => repriceBy k y.deed)

/-- `l` is all that happened since call `x` created the auction `a` of token `k`. -/
structure Spec.Since (k : Key) (a : Auction) (l : List Act) (x : Act) : Prop where
  /-- created by the seller, with this duration and payee; the reserve price is the last one the seller named -/
  made : ∃ funds r, x.deed = .call a.seller funds (.create k.1 k.2 r a.duration a.recipient) ∧
    a.reserve = ((repriced k l).map Prod.snd).headD r
  sellers : ∀ e ∈ repriced k l, e.1 = a.seller
  fresh : x.before.auctions.get? k = none
  started : x.after.auctions.get? k ≠ none
  stays : ∀ y ∈ l, y.before.auctions.get? k ≠ none ∧ y.after.auctions.get? k ≠ none
  /-- every bid is one coin of the reserve's denom, no less than the reserve, and not the seller's -/
  bids : ∀ e ∈ bidsOn k l, e.1 ≠ a.seller ∧ ∃ n, e.2 = [⟨a.reserve.denom, n⟩] ∧ a.reserve.amount ≤ n
  /-- every bid is higher than all before it -/
  rising : (bidsOn k l).Pairwise (fun late early => amountOf a.reserve.denom early.2 < amountOf a.reserve.denom late.2)
  /-- the record keeps the last bid -/
  high : a.highBid = (bidsOn k l).head?.map (fun e => ⟨⟨a.reserve.denom, amountOf a.reserve.denom e.2⟩, e.1⟩)

/-! ### Lemmas -/

/-- Same auction up to the end time. -/
def Alike (a b : Auction) : Prop :=
  b.seller = a.seller ∧ b.duration = a.duration ∧ b.recipient = a.recipient ∧ b.reserve = a.reserve ∧ b.highBid = a.highBid

theorem Alike.refl (a : Auction) : Alike a a := ⟨rfl, rfl, rfl, rfl, rfl⟩

theorem Spec.Since.quiet {k : Key} {a b : Auction} {l : List Act} {x y : Act} (h : Since k a l x) (e : Alike a b)
    (hb : offerBy k y.deed = none) (hr : repriceBy k y.deed = none) (h1 : y.before.auctions.get? k ≠ none)
    (h2 : y.after.auctions.get? k ≠ none) : Since k b (y :: l) x := by
  obtain ⟨e1, e2, e3, e4, e5⟩ := e
  have hB : bidsOn k (y :: l) = bidsOn k l := by simp [bidsOn, hb]
  have hR : repriced k (y :: l) = repriced k l := by simp [repriced, hr]
  refine ⟨?_, ?_, h.fresh, h.started, ?_, ?_, ?_, ?_⟩
  · rw [e1, e2, e3, e4, hR]; exact h.made
  · rw [e1, hR]; exact h.sellers
  · intro z hz
    rcases List.mem_cons.mp hz with rfl | hz
    · exact ⟨h1, h2⟩
    · exact h.stays z hz
  · rw [e1, e4, hB]; exact h.bids
  · rw [e4, hB]; exact h.rising
  · rw [e4, e5, hB]; exact h.high

theorem Settled.kept {ctx : Ctx} {a : Auction} {c : Config} {ws : List HaltWindow} {s s' : State} {ms : List Msg}
    (h : Settled p ctx a c ws s s' ms) (ha : s.auctions.get? a.key = some a) {k : Key} {b : Auction} (hb : s'.auctions.get? k = some b) :
    ∃ b0, s.auctions.get? k = some b0 ∧ Alike b0 b := by
  by_cases e : k = a.key
  · subst e
    refine ⟨a, ha, ?_⟩
    cases h with
    | postponed => rw [AMap.get?_insert_self] at hb; cases hb; exact ⟨rfl, rfl, rfl, rfl, rfl⟩
    | sold => rw [AMap.get?_erase_self] at hb; cases hb
  · rw [h.frame.2.2.2.2 k e] at hb
    exact ⟨b, hb, .refl b⟩

theorem Batch.kept {ctx : Ctx} {c : Config} {ws : List HaltWindow} {as : List Auction} {s s' : State} {ms : List Msg}
    (h : Batch p ctx c ws as s s' ms) : Stored s as → ∀ {k : Key} {b : Auction}, s'.auctions.get? k = some b →
    ∃ b0, s.auctions.get? k = some b0 ∧ Alike b0 b := by
  induction h with
  | nil => intro _ k b hb; exact ⟨b, hb, .refl b⟩
  | cons h1 _ ih =>
    intro hst k b hb
    obtain ⟨b1, hb1, x1⟩ := ih (hst.tail h1) hb
    obtain ⟨b0, hb0, x0⟩ := h1.kept (hst.1 _ List.mem_cons_self) hb1
    obtain ⟨f1, f2, f3, f4, f5⟩ := x1
    obtain ⟨g1, g2, g3, g4, g5⟩ := x0
    exact ⟨b0, hb0, f1.trans g1, f2.trans g2, f3.trans g3, f4.trans g4, f5.trans g5⟩

theorem sudo_kept {ctx : Ctx} {m : Sudo} {s s' : State} {msgs : List Msg} (hw : WF p me s) (h : sudo p ctx m s = .ok (s', msgs))
    {k : Key} {b : Auction} (hb : s'.auctions.get? k = some b) : ∃ b0, s.auctions.get? k = some b0 ∧ Alike b0 b := by
  cases sudo_eff h with
  | stop earliest s1 _ _ _ hbat => exact hbat.kept (due_stored hw) hb
  | begin => exact ⟨b, hb, .refl b⟩
  | params => exact ⟨b, hb, .refl b⟩
  | setMin => exact ⟨b, hb, .refl b⟩
  | unsetMin => exact ⟨b, hb, .refl b⟩

theorem ins_cases {s : State} {k k' : Key} {v w : Auction} (h : (s.auctions.insert k v).get? k' = some w) :
    (k = k' ∧ w = v) ∨ (k ≠ k' ∧ s.auctions.get? k' = some w) := by
  rw [AMap.get?_insert] at h
  split at h
  · rename_i e; exact .inl ⟨e, (Option.some.inj h).symm⟩
  · rename_i e; exact .inr ⟨e, h⟩

theorem Spec.Since.raise {ctx : Ctx} {sender : Addr} {funds : List Coin} {s s' : State} {msgs : List Msg} {coll tok : Bytes} {a b : Auction}
    {l : List Act} {x z : Act} {n : Nat} (h : Since (coll, tok) a l x) (hr : Reach p me s)
    (hx : execute p ctx sender funds (.bid coll tok) s = .ok (s', msgs)) (ha : s.auctions.get? (coll, tok) = some a)
    (hz : z = ⟨s, .call sender funds (.bid coll tok), s', msgs⟩) (hb : s'.auctions.get? (coll, tok) = some b) (hs : a.seller ≠ sender)
    (hf : funds = [⟨a.reserve.denom, n⟩]) (e1 : b.seller = a.seller) (e2 : b.duration = a.duration) (e3 : b.recipient = a.recipient)
    (e4 : b.reserve = a.reserve) (e5 : b.highBid = some ⟨⟨a.reserve.denom, n⟩, sender⟩) : Since (coll, tok) b (z :: l) x := by
  have hd : z.deed = .call sender funds (.bid coll tok) := by rw [hz]
  have hB : bidsOn (coll, tok) (z :: l) = (sender, funds) :: bidsOn (coll, tok) l := by simp [bidsOn, hd, offerBy]
  have hR : repriced (coll, tok) (z :: l) = repriced (coll, tok) l := by simp [repriced, hd, repriceBy]
  have hn : amountOf a.reserve.denom funds = n := by rw [hf]; simp [amountOf, Coin.inDenom]
  obtain ⟨a0, b0, n0, ha0, hb0, hf0, _, hmin, hmore⟩ := C28_min hr hx
  obtain rfl : a0 = a := Option.some.inj (ha0.symm.trans ha)
  obtain rfl : n0 = n := by rw [hf] at hf0; injection hf0 with h1 _; injection h1 with _ h2; exact h2.symm
  have hlow : ∀ e ∈ bidsOn (coll, tok) l, amountOf a0.reserve.denom e.2 < n0 := by
    intro e he
    have hh := h.high
    have hri := h.rising
    cases hl : bidsOn (coll, tok) l with
    | nil => rw [hl] at he; cases he
    | cons w ws =>
      rw [hl] at he hh hri
      obtain ⟨_, _, hlt⟩ := hmore _ hh
      rcases List.mem_cons.mp he with rfl | he
      · exact hlt
      · exact Nat.lt_trans (List.rel_of_pairwise_cons hri he) hlt
  refine ⟨?_, ?_, h.fresh, h.started, ?_, ?_, ?_, ?_⟩
  · rw [e1, e2, e3, e4, hR]; exact h.made
  · rw [e1, hR]; exact h.sellers
  · intro y hy
    rcases List.mem_cons.mp hy with rfl | hy
    · rw [hz]; exact ⟨by rw [ha]; simp, by rw [hb]; simp⟩
    · exact h.stays y hy
  · rw [e1, e4, hB]
    intro e he
    rcases List.mem_cons.mp he with rfl | he
    · refine ⟨fun k => hs k.symm, n0, hf, ?_⟩
      cases hh : a0.highBid with
      | none => exact hmin hh
      | some w =>
        cases hl : bidsOn (coll, tok) l with
        | nil => have := h.high; rw [hl, hh] at this; cases this
        | cons v vs =>
          obtain ⟨_, n1, h1, h2⟩ := h.bids v (by rw [hl]; simp)
          have h3 := hlow v (by rw [hl]; simp)
          rw [h1] at h3
          simp [amountOf, Coin.inDenom] at h3
          omega
    · exact h.bids e he
  · rw [e4, hB]
    refine .cons ?_ h.rising
    intro e he
    dsimp only; rw [hn]; exact hlow e he
  · rw [e4, e5, hB]
    simp [hn]

theorem since_call {ctx : Ctx} {sender : Addr} {funds : List Coin} {m : Exec} {s s' : State} {msgs : List Msg} (hr : Reach p me s)
    (hx : execute p ctx sender funds m s = .ok (s', msgs)) {k : Key} {a : Auction} (ha : s'.auctions.get? k = some a) {l : List Act}
    (ih : ∀ a0, s.auctions.get? k = some a0 → ∃ l1 x l2, l = l1 ++ x :: l2 ∧ Since k a0 l1 x) :
    ∃ l1 x l2, ⟨s, .call sender funds m, s', msgs⟩ :: l = l1 ++ x :: l2 ∧ Since k a l1 x := by
  have hw := hr.wf
  have keep : ∀ {a0 : Auction}, s.auctions.get? k = some a0 → Alike a0 a → offerBy k (.call sender funds m) = none →
      repriceBy k (.call sender funds m) = none →
      ∃ l1 x l2, ⟨s, .call sender funds m, s', msgs⟩ :: l = l1 ++ x :: l2 ∧ Since k a l1 x := by
    intro a0 h0 hal hb hp
    obtain ⟨l1, x, l2, e, hs⟩ := ih a0 h0
    exact ⟨_ :: l1, x, l2, by rw [e]; rfl, hs.quiet hal hb hp (by rw [h0]; simp) (by rw [ha]; simp)⟩
  cases execute_eff hx with
  | create coll tok r dur rec min hv hrec hown happ hno =>
    rcases ins_cases ha with ⟨rfl, rfl⟩ | ⟨_, h⟩
    · refine ⟨[], _, l, rfl, ⟨⟨funds, r, rfl, rfl⟩, (by intro e he; cases he), hno, ?_, (by intro y hy; cases hy),
        (by intro e he; cases he), .nil, rfl⟩⟩
      dsimp only; rw [AMap.get?_insert_self]; simp
    · exact keep h (.refl a) rfl rfl
  | reserve coll tok r x min hv hf hx' hs hb =>
    have hg := hw.auctions _ _ hx'
    rcases ins_cases ha with ⟨e, rfl⟩ | ⟨e, h⟩
    · rw [hg.key] at e; subst e
      obtain ⟨l1, y, l2, e, hsc⟩ := ih x hx'
      have hnb : x.highBid = none := hg.high.mpr (hg.first.mp hb)
      have hnone : bidsOn (coll, tok) l1 = [] := by
        have := hsc.high
        rw [hnb] at this
        cases hl : bidsOn (coll, tok) l1 with
        | nil => rfl
        | cons z zs => rw [hl] at this; cases this
      have hB : ∀ z : Act, z.deed = .call sender funds (.updateReserve coll tok r) → bidsOn (coll, tok) (z :: l1) = [] := by
        intro z hz; simp only [bidsOn, List.filterMap_cons, hz, offerBy]; exact hnone
      have hR : ∀ z : Act, z.deed = .call sender funds (.updateReserve coll tok r) →
          repriced (coll, tok) (z :: l1) = (sender, r) :: repriced (coll, tok) l1 := by
        intro z hz; simp [repriced, hz, repriceBy]
      obtain ⟨fu, r0, hm, _⟩ := hsc.made
      refine ⟨_ :: l1, y, l2, by rw [e]; rfl, ⟨⟨fu, r0, hm, ?_⟩, ?_, hsc.fresh, hsc.started, ?_, ?_, ?_, ?_⟩⟩
      · rw [hR _ rfl]; rfl
      · rw [hR _ rfl]
        intro z hz
        rcases List.mem_cons.mp hz with rfl | hz
        · exact hs.symm
        · exact hsc.sellers z hz
      · intro z hz
        rcases List.mem_cons.mp hz with rfl | hz
        · exact ⟨by rw [hx']; simp, by rw [ha]; simp⟩
        · exact hsc.stays z hz
      · rw [hB _ rfl]; intro z hz; cases hz
      · rw [hB _ rfl]; exact .nil
      · rw [hB _ rfl]; exact hnb
    · rw [hg.key] at e
      exact keep h (.refl a) rfl (by simp [repriceBy, e])
  | cancel coll tok x hv hf hx' hs hb =>
    simp only at ha
    rw [AMap.get?_erase] at ha
    split at ha
    · cases ha
    · exact keep ha (.refl a) rfl rfl
  | settle coll tok x _ _ hv hf hx' hset =>
    obtain ⟨b0, h0, hal⟩ := hset.kept (by rw [(hw.auctions _ _ hx').key]; exact hx') ha
    exact keep h0 hal rfl rfl
  | bid1 coll tok x n m e hv hx' hs hfunds hpos hm hge hend hb hov he =>
    have hg := hw.auctions _ _ hx'
    rcases ins_cases ha with ⟨e, rfl⟩ | ⟨e, h⟩
    · rw [hg.key] at e; subst e
      obtain ⟨l1, y, l2, e, hsc⟩ := ih x hx'
      exact ⟨_ :: l1, y, l2, by rw [e]; rfl, hsc.raise hr hx hx' rfl ha hs hfunds rfl rfl rfl rfl rfl⟩
    · rw [hg.key] at e
      exact keep h (.refl a) (by simp [offerBy, e]) rfl
  | bid2 coll tok x n m f e e' h hv hx' hs hfunds hpos hm hge hend hb hh hz he he' =>
    have hg := hw.auctions _ _ hx'
    rcases ins_cases ha with ⟨e, rfl⟩ | ⟨e, h⟩
    · rw [hg.key] at e; subst e
      obtain ⟨l1, y, l2, e, hsc⟩ := ih x hx'
      exact ⟨_ :: l1, y, l2, by rw [e]; rfl, hsc.raise hr hx hx' rfl ha hs hfunds rfl rfl rfl rfl rfl⟩
    · rw [hg.key] at e
      exact keep h (.refl a) (by simp [offerBy, e]) rfl

/-! ### Properties -/

/-- Every open auction was created by its seller, who alone has named its reserve price; its high bid is the last and the highest of all
bids that were made on it. -/
theorem C131_open {c : Config} {mins : List Coin} {s0 s : State} {l : List Act} (hi : instantiate p c mins = .ok s0)
    (h : Diary p me s0 l s) {k : Key} {a : Auction} (ha : s.auctions.get? k = some a) :
    ∃ l1 x l2, l = l1 ++ x :: l2 ∧ Since k a l1 x := by
  induction h generalizing a with
  | nil => rw [init_empty hi] at ha; simp at ha
  | call hd hself hne hx ih => exact since_call (diary_reach hi hd) hx ha (fun a0 h0 => ih h0)
  | sudo hd hself hx ih =>
    obtain ⟨b0, h0, hal⟩ := sudo_kept (diary_reach hi hd).wf hx ha
    obtain ⟨l1, x, l2, e, hs⟩ := ih h0
    exact ⟨_ :: l1, x, l2, by rw [e]; rfl, hs.quiet hal rfl rfl (by rw [h0]; simp) (by rw [ha]; simp)⟩

/-- When an auction is closed, either its seller cancels it and there was no bid, or the token goes to the account that made the
highest of all bids since it was created (which is what C35 pays out). -/
theorem C131_winner (hl : LibOk p.lib) {c : Config} {mins : List Coin} {s0 s : State} {y : Act} {l : List Act}
    (hi : instantiate p c mins = .ok s0) (h : Diary p me s0 (y :: l) s) {k : Key} {a : Auction}
    (ha : y.before.auctions.get? k = some a) (hn : y.after.auctions.get? k = none) :
    ∃ l1 x l2, l = l1 ++ x :: l2 ∧ Since k a l1 x ∧
      ((y.deed = .call a.seller [] (.cancel k.1 k.2) ∧ bidsOn k l1 = [] ∧ .nft k.1 k.2 a.seller ∈ y.sent) ∨
       ∃ e rest, bidsOn k l1 = e :: rest ∧ (∀ e' ∈ rest, amountOf a.reserve.denom e'.2 < amountOf a.reserve.denom e.2) ∧
         .nft k.1 k.2 e.1 ∈ y.sent) := by
  have won : ∀ {l1 : List Act} {x : Act}, Since k a l1 x → (∀ b, a.highBid = some b → .nft k.1 k.2 b.bidder ∈ y.sent) →
      (a.highBid = none → False) →
      ∃ e rest, bidsOn k l1 = e :: rest ∧ (∀ e' ∈ rest, amountOf a.reserve.denom e'.2 < amountOf a.reserve.denom e.2) ∧
         .nft k.1 k.2 e.1 ∈ y.sent := by
    intro l1 x hs hw hne
    have hh := hs.high
    have hri := hs.rising
    cases hb : bidsOn k l1 with
    | nil => rw [hb] at hh; exact (hne hh).elim
    | cons e rest =>
      rw [hb] at hh hri
      exact ⟨e, rest, rfl, fun e' he' => List.rel_of_pairwise_cons hri he', hw _ hh⟩
  have hk : ∀ b, a.highBid = some b → .nft k.1 k.2 b.bidder ∈ y.sent := fun b hb => C126_won hl hi h (List.mem_cons_self) ha hb hn
  cases h with
  | @call l s s' ctx sender funds m msgs hd hself hne hx =>
    obtain ⟨l1, x, l2, e, hs⟩ := C131_open hi hd ha
    refine ⟨l1, x, l2, e, hs, ?_⟩
    have hr := diary_reach hi hd
    have hw := hr.wf
    have stay : ∀ {k' : Key} {v : Auction}, (s.auctions.insert k' v).get? k ≠ none := by
      intro k' v e
      rw [AMap.get?_insert] at e
      split at e
      · cases e
      · rw [ha] at e; cases e
    cases hb : a.highBid with
    | some b => exact .inr (won hs hk (by rw [hb]; simp))
    | none =>
      cases execute_eff hx with
      | create => exact absurd hn stay
      | reserve => exact absurd hn stay
      | bid1 => exact absurd hn stay
      | bid2 => exact absurd hn stay
      | settle coll tok z _ _ hv hf hz hset =>
        obtain ⟨_, v, hv', ho, hother, _⟩ := C35_settle hl hr hx
        by_cases e : k = (coll, tok)
        · subst e
          obtain rfl : a = v := Option.some.inj (ha.symm.trans hv')
          cases ho with
          | postponed _ _ _ _ _ _ _ h' => rw [hn] at h'; cases h'
          | sold _ b' _ pay _ _ _ hb' => rw [hb] at hb'; cases hb'
        · exact absurd hn (by dsimp only; rw [hother k e, ha]; simp)
      | cancel coll tok z hv hf hz hse hfirst =>
        have hg := hw.auctions _ _ hz
        dsimp only at hn
        rw [AMap.get?_erase] at hn
        split at hn
        · rename_i e
          rw [hg.key] at e
          subst e
          obtain rfl : a = z := Option.some.inj (ha.symm.trans hz)
          refine .inl ⟨by rw [hf, hse], ?_, by simp⟩
          have hh := hs.high
          rw [hb] at hh
          cases hl : bidsOn (coll, tok) l1 with
          | nil => rfl
          | cons e rest => rw [hl] at hh; cases hh
        · exact absurd hn (by rw [ha]; simp)
  | sudo hd hself hx =>
    obtain ⟨l1, x, l2, e, hs⟩ := C131_open hi hd ha
    refine ⟨l1, x, l2, e, hs, .inr (won hs hk (fun hb => ?_))⟩
    have hr := diary_reach hi hd
    obtain ⟨ctx, m, hx⟩ : ∃ ctx m, sudo p ctx m _ = .ok (_, _) := ⟨_, _, hx⟩
    cases m with
    | endBlock =>
      rcases C35_batch hl hr hx ha with ⟨e, _⟩ | ⟨pre, ms, post, e, ho, _⟩
      · exact absurd hn (by dsimp only; rw [e]; simp)
      · cases ho with
        | postponed _ _ _ _ _ _ _ h' => exact absurd hn (by dsimp only; rw [h']; simp)
        | sold _ b' _ pay _ _ _ hb' => rw [hb] at hb'; cases hb'
    | beginBlock => cases sudo_eff hx; exact absurd hn (by dsimp only at ha ⊢; rw [ha]; simp)
    | updateParams => cases sudo_eff hx; exact absurd hn (by dsimp only at ha ⊢; rw [ha]; simp)
    | setMinReserve => cases sudo_eff hx; exact absurd hn (by dsimp only at ha ⊢; rw [ha]; simp)
    | unsetMinReserve => cases sudo_eff hx; exact absurd hn (by dsimp only at ha ⊢; rw [ha]; simp)

namespace Sample
/-- carol wins over bob -/
example : s4.auctions.get? (coll, tok) ≠ none ∧ s5.auctions.get? (coll, tok) = none ∧
    bidsOn (coll, tok) diary = [(carol, [⟨ust, 120⟩]), (bob, [⟨ust, 100⟩])] := by decide +kernel
example : ∃ a, s4.auctions.get? (coll, tok) = some a := by
  cases h : s4.auctions.get? (coll, tok) with
  | none => exact absurd h (by decide +kernel)
  | some a => exact ⟨a, rfl⟩
example {a : Auction} (h : s4.auctions.get? (coll, tok) = some a) :=
  C131_winner libOk init0 diary_ok (k := (coll, tok)) h (by decide +kernel)

/-- the history up to the second bid -/
theorem bids_ok : Diary P self s0 (diary.drop 1) s4 := by
  have o0 : sok (ctx 1000000) .beginBlock s0 = true := by decide +kernel
  have o1 : ok (ctx 1000000 (some alice)) alice [⟨ust, 5⟩] (.create coll tok ⟨ust, 100⟩ 60 none) s1 = true := by decide +kernel
  have o2 : ok (ctx 1000000) bob [⟨ust, 100⟩] (.bid coll tok) s2 = true := by decide +kernel
  have o3 : ok (ctx 1040500) carol [⟨ust, 120⟩] (.bid coll tok) s3 = true := by decide +kernel
  have d0 : Diary P self s0 _ s1 := .sudo (ctx := ctx 1000000) .nil rfl (srun_eq o0)
  exact note (note (note d0 rfl (by decide) o1) rfl (by decide) o2) rfl (by decide) o3
example {a : Auction} (h : s4.auctions.get? (coll, tok) = some a) := C131_open init0 bids_ok h

/-- alice lowers the reserve price to 90 and then cancels -/
def rp3 : State := (run (ctx 1000000) alice [] (.updateReserve coll tok ⟨ust, 90⟩) s2).1
def rp4 : State := (run (ctx 1000000) alice [] (.cancel coll tok) rp3).1
theorem cancel_ok : Diary P self s0 [noteAct (ctx 1000000) alice [] (.cancel coll tok) rp3,
    noteAct (ctx 1000000) alice [] (.updateReserve coll tok ⟨ust, 90⟩) s2,
    noteAct (ctx 1000000 (some alice)) alice [⟨ust, 5⟩] (.create coll tok ⟨ust, 100⟩ 60 none) s1,
    ⟨s0, .sudo .beginBlock, s1, (srun (ctx 1000000) .beginBlock s0).2⟩] rp4 := by
  have o0 : sok (ctx 1000000) .beginBlock s0 = true := by decide +kernel
  have o1 : ok (ctx 1000000 (some alice)) alice [⟨ust, 5⟩] (.create coll tok ⟨ust, 100⟩ 60 none) s1 = true := by decide +kernel
  have o2 : ok (ctx 1000000) alice [] (.updateReserve coll tok ⟨ust, 90⟩) s2 = true := by decide +kernel
  have o3 : ok (ctx 1000000) alice [] (.cancel coll tok) rp3 = true := by decide +kernel
  have d0 : Diary P self s0 _ s1 := .sudo (ctx := ctx 1000000) .nil rfl (srun_eq o0)
  exact note (note (note d0 rfl (by decide) o1) rfl (by decide) o2) rfl (by decide) o3
example : (rp3.auctions.get? (coll, tok)).map Auction.reserve = some ⟨ust, 90⟩ := by decide +kernel
example {a : Auction} (h : rp3.auctions.get? (coll, tok) = some a) :=
  C131_winner libOk init0 cancel_ok (k := (coll, tok)) h (by decide +kernel)
end Sample

end
end Verif.Auction

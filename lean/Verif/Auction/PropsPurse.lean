/-
Reserve auction: the money of a single account (C126).
-/
import Verif.Base.Purse
import Verif.Auction.PropsLedger

namespace Verif.Auction
open Verif Spec

section
variable {p : Params} {me : Addr}

/-! ### Specification -/

/-- The coin of the standing high bid, if it is `a`'s. -/
def Spec.bidOf (a : Addr) (x : Auction) : List Coin :=
  match x.highBid with
  | some h => if h.bidder = a then [h.coin] else []
  | none => []

/-- All standing high bids of `a`. -/
def Spec.ownCoins (a : Addr) (s : State) : List Coin := s.auctions.vals.flatMap (bidOf a)

/-- The high bids of `a` in auctions that were closed. -/
def Spec.wonCoins (a : Addr) (s s' : State) : List Coin :=
  (s.auctions.l.filter (fun x => (s'.auctions.get? x.1).isNone)).flatMap (fun x => bidOf a x.2)

/-- A call or a hook as it happened. -/
inductive Spec.Deed where
  | call (sender : Addr) (funds : List Coin) (m : Exec)
  | sudo (m : Sudo)

structure Spec.Act where
  before : State
  deed : Deed
  after : State
  sent : List Msg

/-- The calls and hooks of a history, latest first. -/
inductive Spec.Diary (p : Params) (self : Addr) (s0 : State) : List Act → State → Prop where
  | nil : Diary p self s0 [] s0
  | call {l : List Act} {s s' : State} {ctx : Ctx} {sender : Addr} {funds : List Coin} {m : Exec} {msgs : List Msg}
      (hd : Diary p self s0 l s) (hself : ctx.self = self) (hne : sender ≠ self)
      (h : execute p ctx sender funds m s = .ok (s', msgs)) :
      Diary p self s0 (⟨s, .call sender funds m, s', msgs⟩ :: l) s'
  | sudo {l : List Act} {s s' : State} {ctx : Ctx} {m : Sudo} {msgs : List Msg}
      (hd : Diary p self s0 l s) (hself : ctx.self = self) (h : Auction.sudo p ctx m s = .ok (s', msgs)) :
      Diary p self s0 (⟨s, .sudo m, s', msgs⟩ :: l) s'

/-- What `a` attached to its bids. -/
def Spec.stake (a : Addr) (d : Denom) (x : Act) : Nat :=
  match x.deed with
  | .call sender funds (.bid _ _) => if sender = a then amountOf d funds else 0
  | _ => 0

/-- What `a` was sent because somebody bid. -/
def Spec.refunded (a : Addr) (d : Denom) (x : Act) : Nat :=
  match x.deed with
  | .call _ _ (.bid _ _) => sentTo a d x.sent
  | _ => 0

/-- The winning bids of `a` in the auctions that were closed. -/
def Spec.won (a : Addr) (d : Denom) (x : Act) : Nat := amountOf d (wonCoins a x.before x.after)

/-- Total over a history. -/
def Spec.over (f : Act → Nat) (l : List Act) : Nat := (l.map f).sum

/-! ### Lemmas -/

/-- Denom `d` in the high bid if it is `a`'s. -/
def bidBy (a : Addr) (d : Denom) (x : Auction) : Nat := amountOf d (bidOf a x)

theorem flat_sum {α : Type} (d : Denom) (f : α → List Coin) : ∀ l : List α,
    amountOf d (l.flatMap f) = (l.map (fun x => amountOf d (f x))).sum
  | [] => rfl
  | x :: l => by
    rw [List.flatMap_cons, amountOf_append, List.map_cons, List.sum_cons, flat_sum d f l]

theorem own_eq (a : Addr) (d : Denom) (s : State) : amountOf d (ownCoins a s) = s.auctions.sum (bidBy a d) :=
  flat_sum d _ _

theorem won_eq (a : Addr) (d : Denom) (s s' : State) :
    amountOf d (wonCoins a s s') = s.auctions.goneSum s'.auctions (bidBy a d) :=
  flat_sum d _ _

theorem bidBy_high {a : Addr} {d : Denom} {x y : Auction} (h : x.highBid = y.highBid) : bidBy a d x = bidBy a d y := by
  unfold bidBy bidOf; rw [h]

/-- Auctions only disappear, or appear without a bid, or keep their high bid. -/
def Quiet (s s' : State) : Prop :=
  ∀ k v', s'.auctions.get? k = some v' →
    (∃ v, s.auctions.get? k = some v ∧ v.highBid = v'.highBid) ∨ (s.auctions.get? k = none ∧ v'.highBid = none)

theorem Quiet.law {s s' : State} (h : Quiet s s') (a : Addr) (d : Denom) :
    amountOf d (ownCoins a s) = amountOf d (ownCoins a s') + amountOf d (wonCoins a s s') := by
  rw [own_eq, own_eq, won_eq]
  obtain ⟨c, mr, ⟨l, nd⟩, pb, ws⟩ := s
  refine AMap.sum_gone _ l nd _ ?_ ?_
  · intro k v' hv'
    rcases h k v' hv' with ⟨v, h1, h2⟩ | ⟨_, h2⟩
    · exact .inl ⟨v, h1, bidBy_high h2⟩
    · right; unfold bidBy bidOf; rw [h2]; rfl
  · intro k v hv v' hv'
    rcases h k v' hv' with ⟨w, h1, h2⟩ | ⟨h1, _⟩
    · have : v = w := Option.some.inj (hv.symm.trans h1)
      subst this
      exact bidBy_high h2
    · exact absurd (hv.symm.trans h1) (by simp)

/-- The same without new auctions. -/
def Calm (s s' : State) : Prop :=
  ∀ k v', s'.auctions.get? k = some v' → ∃ v, s.auctions.get? k = some v ∧ v.highBid = v'.highBid

theorem Calm.quiet {s s' : State} (h : Calm s s') : Quiet s s' := fun k v' hv => .inl (h k v' hv)

theorem Calm.same {s s' : State} (h : s'.auctions = s.auctions) : Calm s s' := fun _ v' hv => ⟨v', h ▸ hv, rfl⟩

theorem Calm.erase {s : State} (k : Key) : Calm s { s with auctions := s.auctions.erase k } := by
  intro k' v' h
  rw [AMap.get?_erase] at h
  split at h
  · cases h
  · exact ⟨v', h, rfl⟩

theorem Calm.insert {s : State} {k : Key} {x y : Auction} (hx : s.auctions.get? k = some x) (h : x.highBid = y.highBid) :
    Calm s { s with auctions := s.auctions.insert k y } := by
  intro k' v' hv
  rw [AMap.get?_insert] at hv
  split at hv
  case isTrue e => cases hv; subst e; exact ⟨x, hx, h⟩
  · exact ⟨v', hv, rfl⟩

theorem Calm.settled {ctx : Ctx} {x : Auction} {c : Config} {ws : List HaltWindow} {s s' : State} {ms : List Msg}
    (h : Settled p ctx x c ws s s' ms) (hx : s.auctions.get? x.key = some x) : Calm s s' := by
  cases h with
  | postponed => exact Calm.insert hx rfl
  | sold => exact Calm.erase _

theorem Calm.batch {ctx : Ctx} {c : Config} {ws : List HaltWindow} {as : List Auction} {s s' : State} {ms : List Msg}
    (h : Batch p ctx c ws as s s' ms) : Stored s as → Calm s s' := by
  induction h with
  | nil s => intro _; exact Calm.same rfl
  | cons h1 _ ih =>
    intro hst k v' hv
    obtain ⟨v, h2, h3⟩ := ih (hst.tail h1) k v' hv
    obtain ⟨w, h4, h5⟩ := Calm.settled h1 (hst.1 _ List.mem_cons_self) k v h2
    exact ⟨w, h4, h5.trans h3⟩

/-! ### C126 -/

/-- A call: what `a` had in high bids and attached to a bid is what it has in high bids, what it is given back and what it
has won by. -/
theorem C126_call {s s' : State} {ctx : Ctx} {sender : Addr} {funds : List Coin} {m : Exec} {msgs : List Msg}
    (hr : Reach p me s) (h : execute p ctx sender funds m s = .ok (s', msgs)) (a : Addr) (d : Denom) :
    amountOf d (ownCoins a s) + stake a d ⟨s, .call sender funds m, s', msgs⟩ =
      amountOf d (ownCoins a s') + refunded a d ⟨s, .call sender funds m, s', msgs⟩ + amountOf d (wonCoins a s s') := by
  have hw := hr.wf
  have key : ∀ {k : Key} {x : Auction}, s.auctions.get? k = some x → s.auctions.get? x.key = some x := by
    intro k x h; rw [(hw.auctions _ _ h).key]; exact h
  have nogone : ∀ {k : Key} {y : Auction}, amountOf d (wonCoins a s { s with auctions := s.auctions.insert k y }) = 0 := by
    intro k y
    rw [won_eq]
    apply AMap.goneSum_zero
    intro k' v hv hn
    rw [AMap.get?_insert] at hn
    split at hn
    · cases hn
    · rw [hv] at hn; cases hn
  cases execute_eff h with
  | create coll tok r dur rec min hv hrec hown happ hno =>
    have : Quiet s { s with auctions := s.auctions.insert (coll, tok) ⟨coll, tok, sender, r, dur, none, rec, none, none⟩ } := by
      intro k v' hv'
      rw [AMap.get?_insert] at hv'
      split at hv'
      case isTrue e => cases hv'; subst e; exact .inr ⟨hno, rfl⟩
      · exact .inl ⟨v', hv', rfl⟩
    have := this.law a d
    simp only [stake, refunded]
    omega
  | reserve coll tok r x min hv hf hx =>
    have := (Calm.insert (y := { x with reserve := r }) (key hx) rfl).quiet.law a d
    simp only [stake, refunded]
    omega
  | cancel coll tok x hv hf hx =>
    have := (Calm.erase (s := s) x.key).quiet.law a d
    simp only [stake, refunded]
    omega
  | bid1 coll tok x n m e hv hx hs hfunds hpos hm hge hend hb =>
    have h1 := AMap.sum_insert_old (v := { x with
      firstBid := some ctx.time, endTime := some e, highBid := some ⟨⟨x.reserve.denom, n⟩, sender⟩ }) (bidBy a d) (key hx)
    have hg := hw.auctions _ _ hx
    have h2 : bidBy a d x = 0 := by unfold bidBy bidOf; rw [hg.high.mpr (hg.first.mp hb)]; rfl
    have h3 : bidBy a d { x with firstBid := some ctx.time, endTime := some e, highBid := some ⟨⟨x.reserve.denom, n⟩, sender⟩ } =
      if sender = a then amountOf d funds else 0 := by
      simp only [bidBy, bidOf, hfunds]; split <;> rfl
    rw [nogone, own_eq, own_eq]
    simp only [stake, refunded, sentTo]
    omega
  | bid2 coll tok x n m f e e' hb0 hv hx hs hfunds hpos hm hge hend hb hh =>
    have h1 := AMap.sum_insert_old (v := { x with
      firstBid := some f, endTime := some e', highBid := some ⟨⟨x.reserve.denom, n⟩, sender⟩ }) (bidBy a d) (key hx)
    have h2 : bidBy a d x = if hb0.bidder = a then amountOf d [hb0.coin] else 0 := by
      unfold bidBy bidOf; rw [hh]; simp only; split <;> rfl
    have h3 : bidBy a d { x with firstBid := some f, endTime := some e', highBid := some ⟨⟨x.reserve.denom, n⟩, sender⟩ } =
      if sender = a then amountOf d funds else 0 := by
      simp only [bidBy, bidOf, hfunds]; split <;> rfl
    rw [nogone, own_eq, own_eq]
    simp only [stake, refunded, sentTo]
    omega
  | settle coll tok x _ _ hv hf hx hset =>
    have := (Calm.settled hset (key hx)).quiet.law a d
    simp only [stake, refunded]
    omega

/-- A hook: high bids leave only by winning. -/
theorem C126_hook {s s' : State} {ctx : Ctx} {m : Sudo} {msgs : List Msg} (hr : Reach p me s)
    (h : sudo p ctx m s = .ok (s', msgs)) (a : Addr) (d : Denom) :
    amountOf d (ownCoins a s) = amountOf d (ownCoins a s') + amountOf d (wonCoins a s s') := by
  have hw := hr.wf
  refine Calm.quiet ?_ |>.law a d
  cases sudo_eff h with
  | stop earliest s1 _ _ _ hb =>
    have := Calm.batch hb (due_stored hw)
    exact this
  | begin => exact Calm.same rfl
  | params => exact Calm.same rfl
  | setMin => exact Calm.same rfl
  | unsetMin => exact Calm.same rfl

/-- The only other call that takes coins is `CreateAuction` (see C42 and C119 for what happens to them). -/
theorem C126_charge {s s' : State} {ctx : Ctx} {sender : Addr} {funds : List Coin} {m : Exec} {msgs : List Msg}
    (h : execute p ctx sender funds m s = .ok (s', msgs)) (hm : ∀ c t, m ≠ .bid c t) (hf : funds ≠ []) :
    ∃ c t r du re, m = .create c t r du re := by
  cases execute_eff h with
  | create c t r du re => exact ⟨c, t, r, du, re, rfl⟩
  | reserve _ _ _ _ _ _ h0 => exact absurd h0 hf
  | cancel _ _ _ _ h0 => exact absurd h0 hf
  | bid1 c t => exact absurd rfl (hm c t)
  | bid2 c t => exact absurd rfl (hm c t)
  | settle _ _ _ _ _ _ h0 => exact absurd h0 hf

theorem diary_reach {s0 s : State} {l : List Act} {c : Config} {mins : List Coin} (hi : instantiate p c mins = .ok s0)
    (h : Diary p me s0 l s) : Reach p me s := by
  induction h with
  | nil => exact ⟨c, mins, _, hi, .refl _⟩
  | call _ hself hne h ih => exact ih.step (.call hself hne h)
  | sudo _ hself h ih => exact ih.step (.sudo hself h)

theorem gone_call (hl : LibOk p.lib) {s s' : State} {ctx : Ctx} {sender : Addr} {funds : List Coin} {m : Exec} {msgs : List Msg}
    (hr : Reach p me s) (h : execute p ctx sender funds m s = .ok (s', msgs)) {k : Key} {v : Auction} {b : HighBid}
    (hv : s.auctions.get? k = some v) (hb : v.highBid = some b) (hn : s'.auctions.get? k = none) :
    .nft k.1 k.2 b.bidder ∈ msgs := by
  have hw := hr.wf
  have stay : ∀ {k' : Key} {y : Auction}, (s.auctions.insert k' y).get? k ≠ none := by
    intro k' y e
    rw [AMap.get?_insert] at e
    split at e
    · cases e
    · rw [hv] at e; cases e
  cases execute_eff h with
  | create => exact absurd hn stay
  | reserve => exact absurd hn stay
  | cancel coll tok x hv' hf hx hs hfirst =>
    have hg := hw.auctions _ _ hx
    simp only at hn
    rw [AMap.get?_erase] at hn
    split at hn
    case isTrue e =>
      rw [hg.key] at e
      subst e
      have : v = x := Option.some.inj (hv.symm.trans hx)
      subst this
      rw [hg.high.mpr (hg.first.mp hfirst)] at hb
      cases hb
    · rw [hv] at hn; cases hn
  | bid1 => exact absurd hn stay
  | bid2 => exact absurd hn stay
  | settle coll tok x _ _ hv' hf hx hset =>
    obtain ⟨_, y, hy, ho, hother, _⟩ := C35_settle hl hr h
    by_cases e : k = (coll, tok)
    · subst e
      have : v = y := Option.some.inj (hv.symm.trans hy)
      subst this
      cases ho with
      | postponed _ _ _ _ _ _ _ h' => rw [hn] at h'; cases h'
      | sold _ b' _ pay _ _ _ hb' _ hm => rw [hb] at hb'; cases hb'; rw [hm]; simp
    · rw [hother k e, hv] at hn; cases hn

theorem gone_hook (hl : LibOk p.lib) {s s' : State} {ctx : Ctx} {m : Sudo} {msgs : List Msg}
    (hr : Reach p me s) (h : sudo p ctx m s = .ok (s', msgs)) {k : Key} {v : Auction} {b : HighBid}
    (hv : s.auctions.get? k = some v) (hb : v.highBid = some b) (hn : s'.auctions.get? k = none) :
    .nft k.1 k.2 b.bidder ∈ msgs := by
  have same : s'.auctions = s.auctions → False := by
    intro e; rw [e, hv] at hn; cases hn
  cases m with
  | endBlock =>
    rcases C35_batch hl hr h hv with ⟨e, _⟩ | ⟨pre, ms, post, e, ho, _⟩
    · rw [hn] at e; cases e
    · cases ho with
      | postponed _ _ _ _ _ _ _ h' => rw [hn] at h'; cases h'
      | sold _ b' _ pay _ _ _ hb' _ hm => rw [hb] at hb'; cases hb'; rw [e, hm]; simp
  | beginBlock => cases sudo_eff h; exact (same rfl).elim
  | updateParams => cases sudo_eff h; exact (same rfl).elim
  | setMinReserve => cases sudo_eff h; exact (same rfl).elim
  | unsetMinReserve => cases sudo_eff h; exact (same rfl).elim

/-- A high bid is gone only if the token goes to its bidder in the same call or hook. -/
theorem C126_won (hl : LibOk p.lib) {l : List Act} {s0 s : State} {c : Config} {mins : List Coin}
    (hi : instantiate p c mins = .ok s0) (h : Diary p me s0 l s) {x : Act} (hx : x ∈ l) {k : Key} {v : Auction} {b : HighBid}
    (hv : x.before.auctions.get? k = some v) (hb : v.highBid = some b) (hn : x.after.auctions.get? k = none) :
    .nft k.1 k.2 b.bidder ∈ x.sent := by
  induction h with
  | nil => cases hx
  | call hd hself hne h ih =>
    rcases List.mem_cons.mp hx with rfl | hx
    · exact gone_call hl (diary_reach hi hd) h hv hb hn
    · exact ih hx
  | sudo hd hself h ih =>
    rcases List.mem_cons.mp hx with rfl | hx
    · exact gone_hook hl (diary_reach hi hd) h hv hb hn
    · exact ih hx

/-- Over every history: what an account attached to bids is what it has in standing high bids, what it got back, and the
bids it won by. -/
theorem C126_history {l : List Act} {s0 s : State} {c : Config} {mins : List Coin}
    (hi : instantiate p c mins = .ok s0) (h : Diary p me s0 l s) (a : Addr) (d : Denom) :
    over (stake a d) l = amountOf d (ownCoins a s) + over (refunded a d) l + over (won a d) l := by
  induction h with
  | nil => simp [over, ownCoins, init_empty hi, AMap.vals, AMap.empty, amountOf]
  | @call l s s' ctx sender funds m msgs hd hself hne h ih =>
    have h1 := C126_call (diary_reach hi hd) h a d
    simp only [over, List.map_cons, List.sum_cons, won] at ih ⊢
    omega
  | @sudo l s s' ctx m msgs hd hself h ih =>
    have h1 := C126_hook (diary_reach hi hd) h a d
    simp only [over, List.map_cons, List.sum_cons, won, stake, refunded] at ih ⊢
    omega

/-- Bidding without winning is free. -/
theorem C126_free {l : List Act} {s0 s : State} {c : Config} {mins : List Coin}
    (hi : instantiate p c mins = .ok s0) (h : Diary p me s0 l s) (a : Addr) (d : Denom)
    (hn : ∀ x ∈ l, ∀ k t, .nft k t a ∉ x.sent) (hl : LibOk p.lib) :
    over (stake a d) l = amountOf d (ownCoins a s) + over (refunded a d) l := by
  rw [C126_history hi h a d]
  have : over (won a d) l = 0 := by
    unfold over
    have : ∀ l' : List Act, (∀ x ∈ l', x ∈ l) → (l'.map (won a d)).sum = 0 := by
      intro l'
      induction l' with
      | nil => intro _; rfl
      | cons x l' ih =>
        intro hs
        have h1 : won a d x = 0 := by
          unfold won
          rw [won_eq]
          apply AMap.goneSum_zero
          intro k v hv hg
          unfold bidBy bidOf
          cases hb : v.highBid with
          | none => rfl
          | some b =>
            have := C126_won hl hi h (hs x List.mem_cons_self) hv hb hg
            have hne : b.bidder ≠ a := fun e => hn x (hs x List.mem_cons_self) k.1 k.2 (e ▸ this)
            simp [if_neg hne, amountOf]
        rw [List.map_cons, List.sum_cons, h1, ih (fun y hy => hs y (List.mem_cons_of_mem _ hy))]
    exact this l (fun _ h => h)
  omega

namespace Sample
def noteAct (c : Ctx) (sender : Addr) (funds : List Coin) (m : Exec) (s : State) : Act :=
  ⟨s, .call sender funds m, (run c sender funds m s).1, (run c sender funds m s).2⟩

theorem note {s0 s : State} {l : List Act} {c : Ctx} {sender : Addr} {funds : List Coin} {m : Exec}
    (hd : Diary P self s0 l s) (hself : c.self = self) (hne : sender ≠ self) (h : ok c sender funds m s = true) :
    Diary P self s0 (noteAct c sender funds m s :: l) (run c sender funds m s).1 :=
  .call hd hself hne (run_eq h)

/-- alice creates an auction, bob bids 100, carol bids 120, the auction is settled -/
def diary : List Act :=
  [noteAct (ctx 1080000) bob [] (.settle coll tok) s4,
   noteAct (ctx 1040500) carol [⟨ust, 120⟩] (.bid coll tok) s3,
   noteAct (ctx 1000000) bob [⟨ust, 100⟩] (.bid coll tok) s2,
   noteAct (ctx 1000000 (some alice)) alice [⟨ust, 5⟩] (.create coll tok ⟨ust, 100⟩ 60 none) s1,
   ⟨s0, .sudo .beginBlock, s1, (srun (ctx 1000000) .beginBlock s0).2⟩]

theorem diary_ok : Diary P self s0 diary s5 := by
  have o0 : sok (ctx 1000000) .beginBlock s0 = true := by decide +kernel
  have o1 : ok (ctx 1000000 (some alice)) alice [⟨ust, 5⟩] (.create coll tok ⟨ust, 100⟩ 60 none) s1 = true := by decide +kernel
  have o2 : ok (ctx 1000000) bob [⟨ust, 100⟩] (.bid coll tok) s2 = true := by decide +kernel
  have o3 : ok (ctx 1040500) carol [⟨ust, 120⟩] (.bid coll tok) s3 = true := by decide +kernel
  have o4 : ok (ctx 1080000) bob [] (.settle coll tok) s4 = true := by decide +kernel
  have d0 : Diary P self s0 _ s1 := .sudo (ctx := ctx 1000000) .nil rfl (srun_eq o0)
  exact note (note (note (note d0 rfl (by decide) o1) rfl (by decide) o2) rfl (by decide) o3) rfl (by decide) o4

/-- bob staked 100 and got it back, carol staked 120 and won by it -/
example : [bob, carol].map (fun a => (over (stake a ust) diary, amountOf ust (ownCoins a s5), over (refunded a ust) diary,
    over (won a ust) diary)) = [(100, 0, 100, 0), (120, 0, 0, 120)] := by decide +kernel
example := C126_history init0 diary_ok bob ust
example := C126_call r3 (run_eq (show ok (ctx 1040500) carol [⟨ust, 120⟩] (.bid coll tok) s3 = true by decide +kernel)) bob ust
example : over (stake bob ust) diary = amountOf ust (ownCoins bob s5) + over (refunded bob ust) diary :=
  C126_free init0 diary_ok bob ust (by
    have : diary.all (fun x => x.sent.all (fun m => match m with | .nft _ _ to => decide (to ≠ bob) | _ => true)) = true := by
      decide +kernel
    intro x hx k t hm
    have := List.all_eq_true.mp (List.all_eq_true.mp this x hx) _ hm
    exact absurd rfl (of_decide_eq_true this)) libOk
end Sample

end
end Verif.Auction

/-
The reserve auction on a chain whose bank refuses payments to some addresses (C144, C145).
-/
import Verif.Base.Refuse
import Verif.Auction.PropsAlone
import Verif.Auction.PropsFunds
import Verif.Auction.PropsHooks
import Verif.Auction.PropsLife
import Verif.Auction.PropsLive
import Verif.Auction.PropsSigned

namespace Verif.Auction
open Verif Spec

variable {p : Params} {me : Addr} {honest blk : Addr → Prop}

/-- Runs from a fresh deployment on a chain that refuses payments to `blk`. -/
def Spec.RunB (p : Params) (self : Addr) (honest blk : Addr → Prop) (x : World State × List Msg) : Prop :=
  ∃ c mins w0, instantiate p c mins = .ok w0.st ∧ (sys p self honest).StepsB blk (w0, []) x

theorem Spec.RunB.run {x : World State × List Msg} (h : RunB p me honest blk x) : Run p me honest x := by
  obtain ⟨c, mins, w0, hi, hs⟩ := h
  exact ⟨c, mins, w0, hi, hs.steps⟩

/-- Looking up royalties and splitting the price never fail. -/
structure Spec.LibSmooth (l : Lib) : Prop where
  royalties : ∀ q c, ∃ r, l.royalties q c = .ok r
  payout : ∀ c a f n r, ∃ ms, l.payout c a f n r = .ok ms

/-- A bid on a token of a conforming collection does not stay in the contract for ever: things can go on so that the auction
is over, which takes a settlement, by which the high bidder gets the token. -/
def C144_statement : Prop :=
  ∀ (p : Params) (me : Addr) (honest blk : Addr → Prop) (w : World State) (coll tok : Bytes) (a : Auction) (b : HighBid),
    LibOk p.lib → LibSmooth p.lib → ¬ blk me → RunB p me honest blk (w, []) → honest coll →
    w.st.auctions.get? (coll, tok) = some a → a.highBid = some b → ¬ blk a.seller → ¬ blk b.bidder →
    ∃ w', (sys p me honest).StepsB blk (w, []) (w', []) ∧ w'.st.auctions.get? (coll, tok) = none

/-- The fee split for this recipient always contains a payment that is refused. -/
def Spec.PaysRefused (l : Lib) (blk : Addr → Prop) (r : Addr) : Prop :=
  ∀ c f n roy ms, 0 < c.amount → l.payout c r f n roy = .ok ms → Refused blk ms

/-- The auction of token `k` is open with a bid, and the proceeds go to `r`. -/
def Spec.Held (k : Key) (r : Addr) (s : State) : Prop :=
  ∃ a, s.auctions.get? k = some a ∧ a.recipient.getD a.seller = r ∧ a.highBid ≠ none

/-- A call leaves the auction open or wants to make a refused payment. -/
theorem held_call {s s' : State} (hr : Reach p me s) {ctx : Ctx} {sender : Addr} {funds : List Coin} {m : Exec}
    {msgs : List Msg} {k : Key} {r : Addr} (hb : PaysRefused p.lib blk r) (hh : Held k r s)
    (h : execute p ctx sender funds m s = .ok (s', msgs)) : Held k r s' ∨ Refused blk msgs := by
  obtain ⟨a, ha, hrec, hbid⟩ := hh
  by_cases hk : keyOf m = k
  · have hg := hr.wf.auctions _ _ ha
    have hf : a.firstBid ≠ none := fun e => hbid (hg.high.2 (hg.first.1 e))
    have same : ∀ {a' : Auction}, s.auctions.get? k = some a' → a' = a := fun h => by rw [ha] at h; cases h; rfl
    cases execute_eff h with
    | create _ _ _ _ _ _ _ _ _ _ hno => rw [show (_, _) = k from hk, ha] at hno; cases hno
    | reserve _ _ _ a' _ _ _ ha' _ hb' => cases hk; cases same ha'; exact absurd hb' hf
    | cancel _ _ a' _ _ ha' _ hb' => cases hk; cases same ha'; exact absurd hb' hf
    | bid1 _ _ a' _ _ _ _ ha' _ _ _ _ _ _ hb' => cases hk; cases same ha'; exact absurd hb' hf
    | bid2 _ _ a' n _ f _ e' _ _ ha' =>
      cases hk; cases same ha'
      refine Or.inl ⟨{ a with firstBid := some f, endTime := some e', highBid := some ⟨⟨a.reserve.denom, n⟩, sender⟩ },
        ?_, hrec, by simp⟩
      show (s.auctions.insert a.key _).get? _ = _
      rw [hg.key, AMap.get?_insert_self]
    | settle _ _ a' _ _ _ _ ha' hs =>
      cases hk; cases same ha'
      cases hs with
      | postponed e e' =>
        refine Or.inl ⟨{ a with endTime := some e' }, ?_, hrec, hbid⟩
        show (s.auctions.insert a.key _).get? _ = _
        rw [hg.key, AMap.get?_insert_self]
      | sold e hb' roy pay he hle hout hh' hroy hpay =>
        right
        obtain ⟨to, cs, h1, h2⟩ := hb _ _ _ _ _ (hg.coin _ hh').2.1 (show p.lib.payout _ r _ _ _ = _ by rw [← hrec]; exact hpay)
        exact ⟨to, cs, h1, List.mem_append_left _ h2⟩
  · left
    exact ⟨a, by rw [C43_frame hr h (fun e => hk e.symm)]; exact ha, hrec, hbid⟩

theorem held_settles {ctx : Ctx} (hme : ctx.self = me) {k : Key} {r : Addr} (hb : PaysRefused p.lib blk r) {ks : List Key}
    {s s' : State} {msgs : List Msg} (hs : Settles p ctx ks s s' msgs) (hr : Reach p me s) (hh : Held k r s) :
    Held k r s' ∨ Refused blk msgs := by
  induction hs with
  | nil s => exact Or.inl hh
  | @cons k' ks s s1 s' m1 m2 h ht ih =>
    rcases held_call hr hb hh (h (0 :: me)) with h1 | ⟨to, cs, h1, h2⟩
    · rcases ih (hr.step (.call hme (by simp) (h (0 :: me)))) h1 with h3 | ⟨to, cs, h3, h4⟩
      · exact Or.inl h3
      · exact Or.inr ⟨to, cs, h3, List.mem_append_right _ h4⟩
    · exact Or.inr ⟨to, cs, h1, List.mem_append_left _ h2⟩

/-- A sudo message does the same. -/
theorem held_sudo {s s' : State} (hr : Reach p me s) {ctx : Ctx} (hme : ctx.self = me) {m : Sudo} {msgs : List Msg} {k : Key}
    {r : Addr} (hb : PaysRefused p.lib blk r) (hh : Held k r s) (h : sudo p ctx m s = .ok (s', msgs)) :
    Held k r s' ∨ Refused blk msgs := by
  by_cases hm : m = .endBlock
  · subst hm
    obtain ⟨ks, s1, _, h1, h2, _⟩ := C123_hook hr h
    rcases held_settles hme hb h1 hr hh with h3 | h3
    · rw [h2]; exact Or.inl h3
    · exact Or.inr h3
  · left
    cases sudo_eff h with
    | stop => exact absurd rfl hm
    | _ => exact hh

/-- If the fee split would pay a refused address, the auction stays open for ever once it has a bid: neither calls nor hooks
end it, whoever makes them and however time passes. (Others can still bid.) -/
theorem C144_stuck {w w' : World State} (h : RunB p me honest blk (w, [])) {k : Key} {a : Auction}
    (hb : PaysRefused p.lib blk (a.recipient.getD a.seller)) (ha : w.st.auctions.get? k = some a) (hbid : a.highBid ≠ none)
    (hs : (sys p me honest).StepsB blk (w, []) (w', [])) :
    ∃ a', w'.st.auctions.get? k = some a' ∧ a'.recipient.getD a'.seller = a.recipient.getD a.seller ∧ a'.highBid ≠ none := by
  have hrun : ∀ {x}, (sys p me honest).StepsB blk (w, []) x → Reach p me x.1.st := by
    intro x hx
    obtain ⟨c, mins, w0, hi, h0⟩ := h
    exact Spec.Run.reach ⟨c, mins, w0, hi, (h0.trans hx).steps⟩
  have := hs.inv (P := fun x => Held k (a.recipient.getD a.seller) x.1.st ∨ Refused blk x.2) (by
    rintro b e c hab (hh | hh) hd he
    · have hr := hrun hab
      cases hd with
      | call w stack sender funds m q s' msgs hctl hne hfunds hq hex =>
        rcases held_call hr hb hh hex with h1 | ⟨to, cs, h1, h2⟩
        · exact Or.inl h1
        · exact Or.inr ⟨to, cs, h1, List.mem_append_left _ h2⟩
      | sudo w m q s' msgs hq hex => exact held_sudo hr rfl hb hh hex
      | env w w' stack hctl h => exact Or.inl (by rw [show w'.st = w.st from h.1]; exact hh)
      | _ => exact Or.inl hh
    · exact Or.inr (hh.did hd he)) (Or.inl ⟨a, ha, rfl, hbid⟩)
  rcases this with h | ⟨_, _, _, h⟩
  · exact h
  · cases h

/-- No end-block hook completes while such an auction is among those it would settle; all auctions that are due together with
it then wait for a call. -/
theorem C144_hook {w w1 w' : World State} (h : Run p me honest (w, [])) {k : Key} {a : Auction} {e : Nat}
    (hb : PaysRefused p.lib blk (a.recipient.getD a.seller)) (ha : w.st.auctions.get? k = some a) (he : a.endTime = some e)
    (ht : w.time < 2^64) (hle : sec e ≤ sec w.time) (hout : ∀ x ∈ w.st.windows, ¬ (x.start < sec e ∧ sec e < x.stop))
    (hlim : dueCount w.st w.time ≤ w.st.config.maxSettle) (hlim2 : w.st.config.maxSettle < 2^32)
    {ms ms' : List Msg} (hd : (sys p me honest).Did (w, []) (.sudo .endBlock ms) (w1, ms')) :
    ¬ (sys p me honest).StepsB blk (w1, ms') (w', []) := by
  cases hd with
  | sudo _ _ q s' _ hq hex =>
    have hr := Spec.Run.reach h
    have hw := hr.wf
    have hst := due_stored (ctx := (sys p me honest).ctx w q) hw
    apply Refused.never (a := (_, _))
    cases sudo_eff (show sudo p ((sys p me honest).ctx w q) .endBlock w.st = .ok (s', ms) from hex) with
    | stop earliest s1 _ _ _ hbt =>
      obtain ⟨x, hx1, hx2⟩ := (due_iff (ctx := (sys p me honest).ctx w q) hw ha he).mpr hle
      have hin : x.2 ∈ dueAuctions ((sys p me honest).ctx w q) w.st := by
        rw [due_eq, List.take_of_length_le (by
          rw [allDue_length (Nat.le_of_lt_succ ht), Nat.mod_eq_of_lt hlim2]; exact hlim)]
        exact List.mem_map_of_mem hx1
      have hxa := hst.1 _ hin
      rw [hx2, ha] at hxa
      cases hxa
      obtain ⟨t, t', m1, x1, hx⟩ := hbt.mem hst _ hin
      cases x1 with
      | postponed e1 e2 he1 _ hin1 =>
        rw [he] at he1; cases he1
        obtain ⟨y, h1, h2⟩ := inHalt_true hin1
        exact absurd h2 (hout y h1)
      | sold e1 hb' roy pay he1 hle1 hout1 hh' hroy hpay =>
        obtain ⟨to, cs, h1, h2⟩ := hb _ _ _ _ _ ((hw.auctions _ _ ha).coin _ hh').2.1 hpay
        exact ⟨to, cs, h1, hx.2.2 _ (List.mem_append_left _ h2)⟩

/-! ### C145 -/

/-- The account that calls; hooks have none. -/
def Spec.Deed.By (P : Addr → Prop) : Deed → Prop
  | .call sender _ _ => P sender
  | .sudo _ => True

/-- The calls of such a run come from accounts that are not refused. -/
theorem Spec.RunB.diary {x : World State × List Msg} (h : RunB p me honest blk x) :
    ∃ c mins s0 l, instantiate p c mins = .ok s0 ∧ Diary p me s0 l x.1.st ∧ ∀ y ∈ l, y.deed.By (fun a => ¬ blk a) := by
  obtain ⟨c, mins, w0, hi, hs⟩ := h
  refine ⟨c, mins, w0.st, ?_⟩
  have := hs.inv (P := fun x => ∃ l, Diary p me w0.st l x.1.st ∧ ∀ y ∈ l, y.deed.By (fun a => ¬ blk a)) (by
    rintro b e c _ ⟨l, hd, hl⟩ hdid he
    cases hdid with
    | call w stack sender funds m q s' msgs hctl hne hfunds hq hex =>
      refine ⟨_, .call hd rfl hne hex, ?_⟩
      intro y hy
      rcases List.mem_cons.1 hy with rfl | hy
      · exact he
      · exact hl y hy
    | sudo w m q s' msgs hq hex =>
      refine ⟨_, .sudo hd rfl hex, ?_⟩
      intro y hy
      rcases List.mem_cons.1 hy with rfl | hy
      · trivial
      · exact hl y hy
    | env w w' stack hctl h => exact ⟨l, by rw [show w'.st = w.st from h.1]; exact hd, hl⟩
    | _ => exact ⟨l, hd, hl⟩) ⟨[], .nil, fun _ h => nomatch h⟩
  obtain ⟨l, h1, h2⟩ := this
  exact ⟨l, hi, h1, h2⟩

/-- Sellers and high bidders are accounts that are not refused. -/
theorem parties_accepted {x : World State × List Msg} (h : RunB p me honest blk x) {k : Key} {a : Auction}
    (ha : x.1.st.auctions.get? k = some a) : ¬ blk a.seller ∧ ∀ b, a.highBid = some b → ¬ blk b.bidder := by
  obtain ⟨c, mins, s0, l, hi, hd, hl⟩ := h.diary
  obtain ⟨l1, x, l2, e, hs⟩ := C131_open hi hd ha
  refine ⟨?_, fun b hb => ?_⟩
  · obtain ⟨f, r, h1, _⟩ := hs.made
    have := hl x (by rw [e]; simp)
    rw [h1] at this
    exact this
  · rw [hs.high] at hb
    obtain ⟨y, hy, rfl⟩ := Option.map_eq_some_iff.mp hb
    have hm := List.mem_of_mem_head? hy
    unfold bidsOn at hm
    obtain ⟨z, hz, h1⟩ := List.mem_filterMap.mp hm
    have h2 := hl z (by rw [e]; simp [hz])
    cases hdd : z.deed with
    | call sender funds m =>
      rw [hdd] at h1 h2
      cases m <;> simp [offerBy] at h1
      obtain ⟨_, rfl⟩ := h1
      exact h2
    | sudo m => rw [hdd] at h1; simp [offerBy] at h1

/-- An accepted call completes if, and only if, none of its payments is refused. (`hh` and `hcr` as in C86.) -/
theorem C145_auction_call (hl : LibOk p.lib) {w : World State} (h : Run p me honest (w, [])) {q : Queries}
    (hq : (sys p me honest).queriesOk w q) {sender : Addr} {funds : List Coin} {m : Exec} {s' : State} {msgs : List Msg}
    (hne : sender ≠ me) (hsb : ¬ blk sender) (hfunds : ∀ d, amountOf d funds ≤ w.bank sender d)
    (hx : execute p ((sys p me honest).ctx w q) sender funds m w.st = .ok (s', msgs))
    (hh : ∀ c t to, Msg.nft c t to ∈ msgs → honest c)
    (hcr : ∀ c t r d x, m = .create c t r d x → w.owner c t ≠ none ∧ w.approved c t = true) :
    (Refused blk msgs → ∀ w', ¬ (sys p me honest).StepsB blk (w.begun me sender funds s', msgs) (w', [])) ∧
      (¬ Refused blk msgs → ∃ w', (sys p me honest).Completes blk w sender funds s' msgs w' ∧ w'.st = s' ∧
        (∀ x d, x ≠ me → w'.bank x d + (if x = sender then amountOf d funds else 0) = w.bank x d + gets x d msgs) ∧
        (∀ c t to, Msg.nft c t to ∈ msgs → w'.owner c t = some to) ∧
        (∀ c t, (∀ to, Msg.nft c t to ∉ msgs) → w'.owner c t = w.owner c t)) := by
  have hr := Spec.Run.reach h
  have h1 := Sys.Did.call (S := sys p me honest) w [] sender funds m q s' msgs trivial hne hfunds hq hx
  have hs := Spec.Run.solvent hl (Spec.Run.step h h1.step)
  rw [List.append_nil] at h1 hs
  obtain ⟨k1, k2, k3⟩ := call_msgs hl hr.wf (execute_eff hx)
  refine ⟨fun hb w' => hb.never w', fun hb => ?_⟩
  have key := Sys.drainB (S := sys p me honest) msgs []
    { w with bank := moveFunds w.bank sender (sys p me honest).self funds, st := s' } hb ?_ (k2.nodup (by simp)) ?_
  · obtain ⟨w', hst, e1, -, -, -, b1, -, o1, o2⟩ := key
    rw [List.append_nil] at hst
    refine ⟨w', ⟨.single h1 hsb, hst⟩, e1, ?_, o1, o2⟩
    intro x d hxm
    rw [b1 x d hxm]
    show moveFunds w.bank sender me funds x d + _ + _ = _
    by_cases e : x = sender
    · subst e
      rw [moveFunds_from hxm, if_pos rfl]
      have := hfunds d
      omega
    · rw [moveFunds_other e hxm, if_neg e]; omega
  · intro y hy
    rcases k1 y hy with h1 | ⟨c, t, to, rfl⟩
    · cases y <;> first | exact h1 | trivial | exact h1.elim
    · have hct := mem_tokens.mpr ⟨to, hy⟩
      have hk : (c, t) = keyOf m := by simpa using k2.subset hct
      refine ⟨hh c t to hy, ?_⟩
      rcases k3 with ⟨c', t', r, d, x, rfl⟩ | k3 | k3
      · cases hk
        obtain ⟨y1, y2⟩ := hcr _ _ _ _ _ rfl
        cases ho : w.owner c t with
        | none => exact absurd ho y1
        | some o => exact ⟨o, rfl, Or.inr y2⟩
      · rw [k3] at hct; cases hct
      · rw [← hk] at k3
        cases ha : w.st.auctions.get? (c, t) with
        | none => exact absurd ha k3
        | some a => exact ⟨me, C31_custody hl h ha (hh c t to hy), Or.inl rfl⟩
  · intro d
    exact Nat.le_trans (Nat.le_add_left _ _) (hs d)

/-- Nobody can keep others from bidding: an accepted bid of an account that is not refused completes. -/
theorem C145_auction_bid (hl : LibOk p.lib) {w : World State} (h : RunB p me honest blk (w, [])) {q : Queries}
    (hq : (sys p me honest).queriesOk w q) {sender : Addr} {funds : List Coin} {coll tok : Bytes} {s' : State} {msgs : List Msg}
    (hne : sender ≠ me) (hsb : ¬ blk sender) (hfunds : ∀ d, amountOf d funds ≤ w.bank sender d)
    (hx : execute p ((sys p me honest).ctx w q) sender funds (.bid coll tok) w.st = .ok (s', msgs)) :
    ∃ w', (sys p me honest).Completes blk w sender funds s' msgs w' ∧ w'.st = s' ∧
      ∀ a b, w.st.auctions.get? (coll, tok) = some a → a.highBid = some b → b.bidder ≠ sender →
        ∀ d, w'.bank b.bidder d = w.bank b.bidder d + amountOf d [b.coin] := by
  have hr := Spec.Run.reach h.run
  obtain ⟨a, a', b', ha, _, _, _, _, hno, hsome⟩ := C29_refund hr hx
  have hms : ∀ y ∈ msgs, ∃ b, a.highBid = some b ∧ y = .send b.bidder [b.coin] := by
    intro y hy
    cases hb : a.highBid with
    | none => rw [hno hb] at hy; cases hy
    | some b => rw [hsome b hb, List.mem_singleton] at hy; exact ⟨b, rfl, hy⟩
  obtain ⟨_, h3⟩ := C145_auction_call (blk := blk) hl h.run hq hne hsb hfunds hx
    (by intro c t to hm; obtain ⟨b, _, e⟩ := hms _ hm; cases e) (fun _ _ _ _ _ e => nomatch e)
  obtain ⟨w', h4, h5, h6, _⟩ := h3 (by
    rintro ⟨to, cs, hb, hm⟩
    obtain ⟨b, e1, e⟩ := hms _ hm
    cases e
    exact (parties_accepted h ha).2 b e1 hb)
  refine ⟨w', h4, h5, ?_⟩
  intro a2 b ha2 hb hbs d
  rw [ha] at ha2
  cases ha2
  have hbm : b.bidder ≠ me := ((hr.wf.auctions _ _ ha).coin _ hb).2.2.2
  have := h6 b.bidder d hbm
  rw [if_neg hbs, hsome b hb] at this
  simpa [gets] using this

/-- Sellers can always cancel an auction without bids and get their token back, also if they have named a payee who is
refused. -/
theorem C145_auction_cancel (hl : LibOk p.lib) {w : World State} (h : RunB p me honest blk (w, [])) {coll tok : Bytes} {a : Auction}
    (ha : w.st.auctions.get? (coll, tok) = some a) (hh : honest coll) (hb : a.highBid = none)
    (q : Queries) (hq : (sys p me honest).queriesOk w q) :
    ∃ s' msgs w', execute p ((sys p me honest).ctx w q) a.seller [] (.cancel coll tok) w.st = .ok (s', msgs) ∧
      (sys p me honest).Completes blk w a.seller [] s' msgs w' ∧ w'.st = s' ∧ s'.auctions.get? (coll, tok) = none ∧
      w'.owner coll tok = some a.seller := by
  have hr := Spec.Run.reach h.run
  have hg := hr.wf.auctions _ _ ha
  have hk : a.collection = coll ∧ a.tokenId = tok := by
    have := hg.key; unfold Auction.key at this; cases this; exact ⟨rfl, rfl⟩
  have hv : p.valid coll = true := by have := hg.valid; rwa [hk.1] at this
  have hf : a.firstBid = none := hg.first.mpr (hg.high.mp hb)
  have hx : execute p ((sys p me honest).ctx w q) a.seller [] (.cancel coll tok) w.st =
      .ok ({ w.st with auctions := w.st.auctions.erase a.key }, [.nft coll tok a.seller]) := by
    unfold execute executeCancel
    simp only [addrValidate, hv, if_true, ok_bind, nonpayable, ensure, ha, orErr, hf]
  obtain ⟨_, h3⟩ := C145_auction_call (blk := blk) hl h.run hq hg.seller (parties_accepted h ha).1
    (fun d => Nat.zero_le _) hx (by intro c t to hm; simp at hm; rw [hm.1]; exact hh) (fun _ _ _ _ _ e => nomatch e)
  obtain ⟨w', h4, h5, _, h6, _⟩ := h3 (by rintro ⟨to, cs, _, hm⟩; simp at hm)
  refine ⟨_, _, w', hx, h4, h5, ?_, h6 _ _ _ (by simp)⟩
  show (w.st.auctions.erase a.key).get? _ = none
  rw [hg.key, AMap.get?_erase_self]

/-! ### What is left of C144, and its violation -/

/-- Part that holds: if none of the payees is refused, any account that is not can settle the ended auction; all messages
are accepted and the high bidder gets the token. -/
theorem C144_partial (hl : LibOk p.lib) {w : World State} (h : Run p me honest (w, [])) {coll tok : Bytes} {a : Auction}
    {e : Nat} {b : HighBid} (ha : w.st.auctions.get? (coll, tok) = some a) (hh : honest coll) (he : a.endTime = some e)
    (hle : e ≤ w.time) (hout : ∀ x ∈ w.st.windows, ¬ (x.start < sec e ∧ sec e < x.stop)) (hb : a.highBid = some b)
    (q : Queries) (hq : (sys p me honest).queriesOk w q)
    {roy : Option Royalty} {pay : List Msg} (hroy : p.lib.royalties q coll = .ok roy)
    (hpay : p.lib.payout b.coin (a.recipient.getD a.seller) w.st.config.fairBurn w.st.config.tradingFee roy = .ok pay)
    (hok : ¬ Refused blk pay) (caller : Addr) (hne : caller ≠ me) (hc : ¬ blk caller) :
    ∃ s' msgs w', execute p ((sys p me honest).ctx w q) caller [] (.settle coll tok) w.st = .ok (s', msgs) ∧
      (sys p me honest).Completes blk w caller [] s' msgs w' ∧ w'.st = s' ∧ s'.auctions.get? (coll, tok) = none ∧
      w'.owner coll tok = some b.bidder := by
  have hr := Spec.Run.reach h
  have hg := hr.wf.auctions _ _ ha
  have hk : a.collection = coll ∧ a.tokenId = tok := by
    have := hg.key; unfold Auction.key at this; cases this; exact ⟨rfl, rfl⟩
  have hhalt : inHalt w.st.windows (secs e) = false := by
    cases hc : inHalt w.st.windows (secs e) with
    | false => rfl
    | true =>
      obtain ⟨x, h1, h2⟩ := inHalt_true hc
      exact absurd h2 (hout x h1)
  have hx : execute p ((sys p me honest).ctx w q) caller [] (.settle coll tok) w.st =
      .ok ({ w.st with auctions := w.st.auctions.erase a.key }, [] ++ (pay ++ [.nft a.collection a.tokenId b.bidder])) := by
    have hv : p.valid coll = true := by have := hg.valid; rwa [hk.1] at this
    have h1 := settle_sold (p := p) (ctx := (sys p me honest).ctx w q) (c := w.st.config) (ws := w.st.windows) (ms := [])
      (s := w.st) he hle hhalt hb (roy := roy) (pay := pay) (by rw [hk.1]; exact hroy) hpay
    rw [← h1]
    unfold execute executeSettle
    simp only [addrValidate, hv, if_true, ok_bind, nonpayable, ensure, ha, orErr]
  obtain ⟨_, h3⟩ := C145_auction_call (blk := blk) hl h hq hne hc (fun d => Nat.zero_le _) hx (by
    intro c t to hm
    rw [List.nil_append, List.mem_append, List.mem_singleton] at hm
    rcases hm with hm | hm
    · exact (hl.pays _ _ _ _ _ _ hpay _ hm).elim
    · cases hm; rw [hk.1]; exact hh) (fun _ _ _ _ _ e => nomatch e)
  obtain ⟨w', h4, h5, _, h6, _⟩ := h3 (by
    rintro ⟨to, cs, h1, hm⟩
    rw [List.nil_append, List.mem_append, List.mem_singleton] at hm
    rcases hm with hm | hm
    · exact hok ⟨to, cs, h1, hm⟩
    · cases hm)
  refine ⟨_, _, w', hx, h4, h5, ?_, h6 _ _ _ (by simp [hk.1, hk.2])⟩
  show (w.st.auctions.erase a.key).get? _ = none
  rw [hg.key, AMap.get?_erase_self]

namespace Sample
/-- A plain library: no royalties, no fee, all of the price for the seller. -/
def lib1 : Lib := { lib0 with royalties := fun _ _ => .ok none, payout := fun c a _ _ _ => .ok (payOne a c.denom c.amount) }
def P1 : Params := { P with lib := lib1 }

theorem lib1_ok : LibOk lib1 where
  owner := lib0_ok.owner
  approved := lib0_ok.approved
  tradable := lib0_ok.tradable
  pays c a f n r ms h m hm := by cases h; exact payOne_pays m hm
  exact c a f n r ms h d := by cases h; exact payOne_out _ _ _ _

theorem lib1_smooth : LibSmooth lib1 := ⟨fun _ _ => ⟨_, rfl⟩, fun _ _ _ _ _ => ⟨_, rfl⟩⟩

/-- the account of a module -/
def mod : Addr := [8, 8, 8]
abbrev isMod : Addr → Prop := fun a => a = mod

theorem lib1_refused : PaysRefused lib1 isMod mod := by
  intro c f n roy ms hpos h
  cases h
  refine ⟨mod, [⟨c.denom, c.amount⟩], rfl, ?_⟩
  simp [payOne, Nat.pos_iff_ne_zero.1 hpos]

abbrev M1 := sys P1 self hon

def run1P (c : Ctx) (sender : Addr) (funds : List Coin) (m : Exec) (s : State) : State × List Msg :=
  match execute P1 c sender funds m s with
  | .ok r => r
  | .error _ => (s, [])

def ok1P (c : Ctx) (sender : Addr) (funds : List Coin) (m : Exec) (s : State) : Bool :=
  match execute P1 c sender funds m s with
  | .ok _ => true
  | .error _ => false

def at1 (w : World State) (sender : Addr) (funds : List Coin) (m : Exec) : World State :=
  { w with bank := moveFunds w.bank sender self funds, st := (run1P (M1.ctx w (qw w)) sender funds m w.st).1 }

theorem RunB_tail {x y : World State × List Msg} {e : Entry Exec Sudo} (h : RunB P1 self hon isMod x) (hd : M1.Did x e y)
    (he : e.accepted isMod) : RunB P1 self hon isMod y := by
  obtain ⟨c, mins, w0, hi, hs⟩ := h
  exact ⟨c, mins, w0, hi, hs.tail hd he⟩

theorem run1P_eq {c : Ctx} {sender : Addr} {funds : List Coin} {m : Exec} {s : State} (hs : ok1P c sender funds m s = true) :
    execute P1 c sender funds m s = .ok ((run1P c sender funds m s).1, (run1P c sender funds m s).2) := by
  unfold ok1P at hs
  unfold run1P
  split at hs
  case h_1 r hr => rw [hr]
  case h_2 => cases hs

theorem call1 {w : World State} (hr : RunB P1 self hon isMod (w, [])) {sender : Addr} {funds : List Coin} {m : Exec} {msgs : List Msg}
    (hne : sender ≠ self) (hmod : sender ≠ mod) (hfunds : ∀ d, amountOf d funds ≤ w.bank sender d)
    (hs : ok1P (M1.ctx w (qw w)) sender funds m w.st = true) (hm : (run1P (M1.ctx w (qw w)) sender funds m w.st).2 = msgs) :
    RunB P1 self hon isMod (at1 w sender funds m, msgs) := by
  have h1 := Sys.Did.call (S := M1) w [] sender funds m (qw w) (run1P (M1.ctx w (qw w)) sender funds m w.st).1
    (run1P (M1.ctx w (qw w)) sender funds m w.st).2 trivial hne hfunds (fun _ _ _ => rfl) (run1P_eq hs)
  rw [hm, List.append_nil] at h1
  exact RunB_tail hr h1 hmod

/-- alice names the account of a module to receive the proceeds -/
def v1 : World State := at1 w0 alice [⟨ust, 5⟩] (.create coll tok ⟨ust, 100⟩ 60 (some mod))
theorem rv1 : RunB P1 self hon isMod (v1, [.fairBurn [⟨ust, 5⟩], .nft coll tok self]) :=
  call1 ⟨cfg, [⟨ust, 10⟩], w0, rfl, .refl _⟩ (by decide) (by decide) (ust_only (by decide +kernel)) (by decide +kernel) (by decide +kernel)
def v3 : World State := { v1 with bank := takeFunds v1.bank self [⟨ust, 5⟩], owner := setOwner v1.owner coll tok self }
theorem rv3 : RunB P1 self hon isMod (v3, []) :=
  RunB_tail (RunB_tail rv1 (Sys.Did.fairBurn (S := M1) v1 [⟨ust, 5⟩] _ (ust_only (by decide +kernel))) trivial)
    (Sys.Did.nft (S := M1) _ coll tok self [] alice trivial (by decide +kernel) (Or.inr rfl)) trivial
/-- bob bids 100 -/
def v4 : World State := at1 v3 bob [⟨ust, 100⟩] (.bid coll tok)
theorem rv4 : RunB P1 self hon isMod (v4, []) :=
  call1 rv3 (by decide) (by decide) (ust_only (by decide +kernel)) (by decide +kernel) (by decide +kernel)
def va : Auction :=
  ⟨coll, tok, alice, ⟨ust, 100⟩, 60, some 1060000000000, some mod, some ⟨⟨ust, 100⟩, bob⟩, some 1000000000000⟩
theorem va_at : v4.st.auctions.get? (coll, tok) = some va := by decide +kernel
end Sample

/-- The seller can name any address to receive the proceeds. If it is one that the bank refuses to pay, nobody can settle the
auction: token and bid stay in the contract (until somebody outbids the bidder). -/
theorem C144_violated : ¬ C144_statement := by
  intro h
  obtain ⟨w', h1, h2⟩ := h Sample.P1 Sample.self Sample.hon Sample.isMod Sample.v4 Sample.coll Sample.tok Sample.va _
    Sample.lib1_ok Sample.lib1_smooth (by decide) Sample.rv4 trivial Sample.va_at rfl (by decide) (by decide)
  obtain ⟨a', h3, _⟩ := C144_stuck (a := Sample.va) Sample.rv4 Sample.lib1_refused Sample.va_at (by decide) h1
  rw [h2] at h3; cases h3

namespace Sample
/-- 100 s later the hook wants to settle -/
def v5 : World State := { v4 with time := 1100000000000, height := 8 }
theorem rv5 : RunB P1 self hon isMod (v5, []) :=
  RunB_tail rv4 (Sys.Did.block (S := M1) v4 _ _ (by decide +kernel) (by decide +kernel)) trivial
def v6 : State × List Msg :=
  match sudo P1 (M1.ctx v5 (qw v5)) .endBlock v5.st with
  | .ok r => r
  | .error _ => (v5.st, [])
theorem v6_eq : sudo P1 (M1.ctx v5 (qw v5)) .endBlock v5.st = .ok v6 := by
  have h : (match sudo P1 (M1.ctx v5 (qw v5)) .endBlock v5.st with | .ok _ => true | .error _ => false) = true := by
    decide +kernel
  unfold v6
  split at h
  case h_1 r hr => rw [hr]
  case h_2 => cases h
example : v6.2 = [.send mod [⟨ust, 100⟩], .nft coll tok bob] := by decide +kernel
end Sample

example (w' : World State) : ¬ Sample.M1.StepsB Sample.isMod ({ Sample.v5 with st := Sample.v6.1 }, Sample.v6.2) (w', []) :=
  C144_hook (Spec.RunB.run Sample.rv5) (k := (Sample.coll, Sample.tok)) (a := Sample.va) (e := 1060000000000)
    Sample.lib1_refused (by decide +kernel) rfl (by decide +kernel) (by decide +kernel)
    (by intro x hx; exact absurd hx (by rw [show Sample.v5.st.windows = [] from by decide +kernel]; simp))
    (by decide +kernel) (by decide +kernel) (Sys.Did.sudo (S := Sample.M1) Sample.v5 .endBlock (Sample.qw Sample.v5)
      Sample.v6.1 Sample.v6.2 (fun _ _ _ => rfl) Sample.v6_eq)

example := C144_partial (blk := Sample.isMod) Sample.libOk Sample.run6 (coll := Sample.coll) (tok := Sample.tok)
  (a := ⟨Sample.coll, Sample.tok, Sample.alice, ⟨Sample.ust, 100⟩, 60, some 1060000000000, none,
    some ⟨⟨Sample.ust, 100⟩, Sample.bob⟩, some 1000000000000⟩) (e := 1060000000000) (b := ⟨⟨Sample.ust, 100⟩, Sample.bob⟩)
  (by decide +kernel) trivial rfl (by decide +kernel)
  (by intro x hx; exact absurd hx (by rw [show Sample.w6.st.windows = [] from by decide +kernel]; simp)) rfl (Sample.qw Sample.w6) (fun _ _ _ => rfl)
  (roy := some ⟨Sample.artist, 5 * 10^16⟩)
  (pay := [.fairBurn [⟨Sample.ust, 2⟩], .send Sample.artist [⟨Sample.ust, 5⟩], .send Sample.alice [⟨Sample.ust, 93⟩]])
  (Sample.okIs_eq (by decide +kernel)) (Sample.okIs_eq (by decide +kernel)) (by
    rintro ⟨to, cs, h1, h2⟩
    simp only [List.mem_cons, List.not_mem_nil, or_false] at h2
    rcases h2 with h2 | h2 | h2 <;> cases h2 <;> revert h1 <;> decide) Sample.carol (by decide) (by decide)

/-! C145: carol outbids bob on the auction whose payee is the module; and before bob's bid alice can cancel it. -/
example := C145_auction_bid (blk := Sample.isMod) Sample.lib1_ok Sample.rv4 (q := Sample.qw Sample.v4) (fun _ _ _ => rfl) (sender := Sample.carol)
  (funds := [⟨Sample.ust, 200⟩]) (coll := Sample.coll) (tok := Sample.tok) (by decide) (by decide) (Sample.ust_only (by decide +kernel))
  (Sample.run1P_eq (by decide +kernel))
example := C145_auction_cancel (blk := Sample.isMod) Sample.lib1_ok Sample.rv3 (coll := Sample.coll) (tok := Sample.tok)
  (a := ⟨Sample.coll, Sample.tok, Sample.alice, ⟨Sample.ust, 100⟩, 60, none, some Sample.mod, none, none⟩) (by decide +kernel) trivial (by decide +kernel) (Sample.qw Sample.v3) (fun _ _ _ => rfl)

end Verif.Auction

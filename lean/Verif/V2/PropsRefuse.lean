/-
Marketplace v2 on a chain whose bank refuses payments to some addresses (C145, C146).
-/
import Verif.Base.Refuse
import Verif.V2.PropsSigned
import Verif.V2.PropsDepth

namespace Verif.V2
open Verif Spec

variable {p : Params} {me : Addr} {honest blk : Addr → Prop}

/-- Runs from a fresh deployment on a chain that refuses payments to `blk`. -/
def Spec.RunB (p : Params) (self : Addr) (honest blk : Addr → Prop) (x : World State × List Msg) : Prop :=
  ∃ c w0, instantiate p c = .ok w0.st ∧ (sys p self honest).StepsB blk (w0, []) x

theorem Spec.RunB.run {x : World State × List Msg} (h : RunB p me honest blk x) : Run p me honest x := by
  obtain ⟨c, w0, hi, hs⟩ := h
  exact ⟨c, w0, hi, hs.steps⟩

/-- The calls of such a run come from accounts that are not refused. -/
theorem Spec.RunB.diary {x : World State × List Msg} (h : RunB p me honest blk x) :
    ∃ c s0 l, instantiate p c = .ok s0 ∧ Diary p me s0 l x.1.st ∧ ∀ y ∈ l, ¬ blk y.sender := by
  obtain ⟨c, w0, hi, hs⟩ := h
  refine ⟨c, w0.st, ?_⟩
  have := hs.inv (P := fun x => ∃ l, Diary p me w0.st l x.1.st ∧ ∀ y ∈ l, ¬ blk y.sender) (by
    rintro b e c _ ⟨l, hd, hl⟩ hdid he
    cases hdid with
    | call w stack sender funds m q s' msgs hctl hne hfunds hq hex =>
      refine ⟨_, .call hd rfl hne hex, ?_⟩
      intro y hy
      rcases List.mem_cons.1 hy with rfl | hy
      · exact he
      · exact hl y hy
    | sudo w m q s' msgs hq hex => exact m.elim
    | env w w' stack hctl h => exact ⟨l, by rw [show w'.st = w.st from h.1]; exact hd, hl⟩
    | _ => exact ⟨l, hd, hl⟩) ⟨[], .nil, fun _ h => nomatch h⟩
  obtain ⟨l, h1, h2⟩ := this
  exact ⟨l, hi, h1, h2⟩

/-- Orders belong to accounts that are not refused. -/
theorem creators_accepted {x : World State × List Msg} (h : RunB p me honest blk x) :
    (∀ id a, x.1.st.asks.get? id = some a → ¬ blk a.creator) ∧ (∀ id b, x.1.st.bids.get? id = some b → ¬ blk b.creator) ∧
    ∀ id b, x.1.st.cbids.get? id = some b → ¬ blk b.creator := by
  obtain ⟨c, s0, l, hi, hd, hl⟩ := h.diary
  refine ⟨?_, ?_, ?_⟩
  · intro id a ha
    obtain ⟨y, h1, l1, l2, h2, _⟩ := C128_ask hi hd ha
    rw [← h1.1]; exact hl y (by rw [h2]; simp)
  · intro id a ha
    obtain ⟨y, h1, l1, l2, h2, _⟩ := C128_bid hi hd ha
    rw [← h1.1]; exact hl y (by rw [h2]; simp)
  · intro id a ha
    obtain ⟨y, h1, l1, l2, h2, _⟩ := C128_cbid hi hd ha
    rw [← h1.1]; exact hl y (by rw [h2]; simp)

/-! ### C145 -/

/-- An accepted call completes if, and only if, none of its payments is refused. (`hnft` as in C77.) -/
theorem C145_v2_call (hlim : 1 ≤ p.maxLimit) {w : World State} (h : Run p me honest (w, [])) {q : Queries}
    (hq : (sys p me honest).queriesOk w q) {sender : Addr} {funds : List Coin} {m : Exec} {s' : State} {msgs : List Msg}
    (hne : sender ≠ me) (hsb : ¬ blk sender) (hfunds : ∀ d, amountOf d funds ≤ w.bank sender d)
    (hx : execute p ((sys p me honest).ctx w q) sender funds m w.st = .ok (s', msgs))
    (hnft : ∀ c t to, Msg.nft c t to ∈ msgs → honest c ∧ ∃ o, w.owner c t = some o ∧ (o = me ∨ w.approved c t = true)) :
    (Refused blk msgs → ∀ w', ¬ (sys p me honest).StepsB blk (w.begun me sender funds s', msgs) (w', [])) ∧
      (¬ Refused blk msgs → ∃ w', (sys p me honest).Completes blk w sender funds s' msgs w' ∧ w'.st = s' ∧
        (∀ x d, x ≠ me → w'.bank x d + (if x = sender then amountOf d funds else 0) = w.bank x d + gets x d msgs) ∧
        (∀ c t to, Msg.nft c t to ∈ msgs → w'.owner c t = some to) ∧
        (∀ c t, (∀ to, Msg.nft c t to ∉ msgs) → w'.owner c t = w.owner c t)) := by
  have hr := Spec.Run.reach h
  have h1 := Sys.Did.call (S := sys p me honest) w [] sender funds m q s' msgs trivial hne hfunds hq hx
  have hs := Spec.Run.solvent hlim (Spec.Run.step h h1.step)
  rw [List.append_nil] at h1 hs
  refine ⟨fun hb w' => hb.never w', fun hb => ?_⟩
  have key := Sys.drainB (S := sys p me honest) msgs []
    { w with bank := moveFunds w.bank sender (sys p me honest).self funds, st := s' } hb ?_ ?_ ?_
  · obtain ⟨w', hst, e1, -, -, -, b1, -, o1, o2⟩ := key
    rw [List.append_nil] at hst
    refine ⟨w', ⟨.single h1 hsb, hst⟩, e1, ?_, o1, o2⟩
    intro x d hxm
    rw [b1 x d hxm]
    show moveFunds w.bank sender me funds x d + _ + _ = _
    by_cases e : x = sender
    · subst e
      rw [moveFunds_from hxm, if_pos rfl]
      have := hfunds d
      omega
    · rw [moveFunds_other e hxm, if_neg e]; omega
  · intro y hy
    rcases msg_kinds (execute_eff hx) y hy with ⟨to, cs, rfl⟩ | ⟨c, t, to, rfl⟩ | ⟨r, c, rfl⟩
    · exact C18_sends hlim hr hx to cs hy
    · exact hnft c t to hy
    · trivial
  · have := C23_at_most_one hr hlim hx
    apply tokens_nodup_of_count
    rw [List.countP_eq_length_filter]
    exact this
  · intro d
    exact Nat.le_trans (Nat.le_add_left _ _) (hs d)

/-- The creator of a bid can withdraw it on such a chain too; it gets back the price. -/
theorem C145_v2_bid (hlim : 1 ≤ p.maxLimit) {w : World State} (h : RunB p me honest blk (w, [])) {id : Bytes} {b : Bid}
    (hb : w.st.bids.get? id = some b) (q : Queries) (hq : (sys p me honest).queriesOk w q) :
    ∃ s' msgs w', execute p ((sys p me honest).ctx w q) b.creator [] (.removeBid id) w.st = .ok (s', msgs) ∧
      (sys p me honest).Completes blk w b.creator [] s' msgs w' ∧ w'.st = s' ∧ s'.bids.get? id = none ∧
      ∀ d, w'.bank b.creator d = w.bank b.creator d + amountOf d [b.details.price] := by
  have hne := (Spec.Reach.cre (Spec.Run.reach h.run)).2.1 id b hb
  have hcr := (creators_accepted h).2.1 id b hb
  obtain ⟨s', hx, _, hgone, _⟩ := C06_withdraw_bid hlim h.run hb q hq
  obtain ⟨_, h2⟩ := C145_v2_call (blk := blk) hlim h.run hq hne hcr (fun d => Nat.zero_le _) hx (by simp)
  obtain ⟨w', h3, h4, h5, _⟩ := h2 (by rintro ⟨to, cs, h6, h7⟩; simp at h7; exact hcr (h7.1 ▸ h6))
  refine ⟨_, _, w', hx, h3, h4, hgone, fun d => ?_⟩
  have := h5 b.creator d hne
  simpa [gets, amountOf] using this

/-- The same for collection bids. -/
theorem C145_v2_cbid (hlim : 1 ≤ p.maxLimit) {w : World State} (h : RunB p me honest blk (w, [])) {id : Bytes} {b : CBid}
    (hb : w.st.cbids.get? id = some b) (q : Queries) (hq : (sys p me honest).queriesOk w q) :
    ∃ s' msgs w', execute p ((sys p me honest).ctx w q) b.creator [] (.removeCollectionBid id) w.st = .ok (s', msgs) ∧
      (sys p me honest).Completes blk w b.creator [] s' msgs w' ∧ w'.st = s' ∧ s'.cbids.get? id = none ∧
      ∀ d, w'.bank b.creator d = w.bank b.creator d + amountOf d [b.details.price] := by
  have hne := (Spec.Reach.cre (Spec.Run.reach h.run)).2.2 id b hb
  have hcr := (creators_accepted h).2.2 id b hb
  obtain ⟨s', hx, _, hgone, _⟩ := C06_withdraw_cbid hlim h.run hb q hq
  obtain ⟨_, h2⟩ := C145_v2_call (blk := blk) hlim h.run hq hne hcr (fun d => Nat.zero_le _) hx (by simp)
  obtain ⟨w', h3, h4, h5, _⟩ := h2 (by rintro ⟨to, cs, h6, h7⟩; simp at h7; exact hcr (h7.1 ▸ h6))
  refine ⟨_, _, w', hx, h3, h4, hgone, fun d => ?_⟩
  have := h5 b.creator d hne
  simpa [gets, amountOf] using this

/-- The creator of a listing can take the token back, even if the listing names a recipient that could not be paid. -/
theorem C145_v2_ask (hlim : 1 ≤ p.maxLimit) {w : World State} (h : RunB p me honest blk (w, [])) {id : Bytes} {a : Ask}
    (ha : w.st.asks.get? id = some a) (hh : honest a.collection) (q : Queries) (hq : (sys p me honest).queriesOk w q) :
    ∃ s' msgs w', execute p ((sys p me honest).ctx w q) a.creator [] (.removeAsk id) w.st = .ok (s', msgs) ∧
      (sys p me honest).Completes blk w a.creator [] s' msgs w' ∧ w'.st = s' ∧ s'.asks.get? id = none ∧
      w'.owner a.collection a.tokenId = some (a.details.recipient.getD a.creator) := by
  have hne := (Spec.Reach.cre (Spec.Run.reach h.run)).1 id a ha
  have hcr := (creators_accepted h).1 id a ha
  obtain ⟨s', hx, _, hgone, _⟩ := C08_withdraw_ask hlim h.run ha hh q hq
  obtain ⟨_, h2⟩ := C145_v2_call (blk := blk) hlim h.run hq hne hcr (fun d => Nat.zero_le _) hx (by
    intro c t to hm
    simp at hm
    obtain ⟨rfl, rfl, rfl⟩ := hm
    exact ⟨hh, me, C07_custody hlim h.run ha hh, Or.inl rfl⟩)
  obtain ⟨w', h3, h4, _, h5, _⟩ := h2 (by rintro ⟨to, cs, h6, h7⟩; simp at h7)
  exact ⟨_, _, w', hx, h3, h4, hgone, h5 _ _ _ (by simp)⟩

/-! ### C146, C147: orders whose payees are refused -/

/-- Whoever buys listing `a`, somebody who is refused would have to be paid. -/
def Spec.AskRefused (blk : Addr → Prop) (q : Queries) (s : State) (a : Ask) : Prop :=
  ∀ taker pays, split a.details.price.amount (a.details.recipient.getD a.creator)
    (feeShares s.config a.details.finder taker ++ royaltyShare q s.config a.collection) = some pays →
    ∃ r n, blk r ∧ (r, n) ∈ pays

/-- Whoever sells to this bid, somebody who is refused would have to be paid. -/
def Spec.BidRefused (blk : Addr → Prop) (q : Queries) (s : State) (coll : Addr) (d : Details) : Prop :=
  ∀ payTo taker pays, split d.price.amount payTo (feeShares s.config d.finder taker ++ royaltyShare q s.config coll) = some pays →
    ∃ r n, blk r ∧ (r, n) ∈ pays

theorem split_pays {n : Nat} {to : Addr} {fs : List (Addr × Nat)} {pays : List (Addr × Nat)} (h : split n to fs = some pays)
    {a : Addr} {k : Nat} (hm : (a, k) ∈ fs) (hk : k ≠ 0) : ∃ m, (a, m) ∈ pays := by
  unfold split at h
  simp only at h
  split at h
  · cases h
  · cases h
    refine ⟨feeDue n k, List.mem_append_left _ ?_⟩
    rw [List.mem_map]
    exact ⟨(a, k), List.mem_filter.2 ⟨hm, by simpa using hk⟩, rfl⟩

/-- It is enough that the finder named by the order is refused, if finders of resting orders get a reward. -/
theorem C147_finder {q : Queries} {s : State} {coll : Addr} {d : Details} {f : Addr} (hf : d.finder = some f) (hb : blk f)
    (h1 : s.config.protocolFeeBps ≠ 0) (h2 : s.config.makerRewardBps ≠ 0) : BidRefused blk q s coll d := by
  intro payTo taker pays h
  rw [hf] at h
  obtain ⟨m, hm⟩ := split_pays h (a := f) (k := s.config.protocolFeeBps * s.config.makerRewardBps * 10^10)
    (by simp [feeShares])
    (Nat.mul_ne_zero (Nat.mul_ne_zero h1 h2) (by decide))
  exact ⟨f, m, hb, hm⟩

theorem C146_finder {q : Queries} {s : State} {a : Ask} {f : Addr} (hf : a.details.finder = some f) (hb : blk f)
    (h1 : s.config.protocolFeeBps ≠ 0) (h2 : s.config.makerRewardBps ≠ 0) : AskRefused blk q s a :=
  fun taker pays h => C147_finder (coll := a.collection) hf hb h1 h2 _ taker pays h

/-- Or that the recipient named by a listing is refused, if fees and royalty leave something of the price. -/
theorem C146_recipient {q : Queries} {s : State} {a : Ask} (hb : blk (a.details.recipient.getD a.creator))
    (hleft : ∀ taker, charged a.details.price.amount
      (feeShares s.config a.details.finder taker ++ royaltyShare q s.config a.collection) < a.details.price.amount) :
    AskRefused blk q s a := by
  intro taker pays h
  have h0 := hleft taker
  obtain ⟨_, rfl⟩ := split_charged h
  rw [if_neg (Nat.ne_of_lt h0)]
  exact ⟨_, _, hb, List.mem_append_right _ List.mem_cons_self⟩

theorem parts_refused {ctx : Ctx} {s : State} (hw : WF p s) {a : Ask} {mb : MatchingBid} {abb : Bool}
    (x : SaleParts p ctx a s.config mb abb)
    (h : ∀ pays, split (saleTerms a mb abb).1.amount a.assetRecipient (saleShares ctx s.config a mb abb) = some pays →
      ∃ r n, blk r ∧ (r, n) ∈ pays) {ms : List Msg} (hsub : ∀ y ∈ x.msgs, y ∈ ms) : Refused blk ms := by
  obtain ⟨r, n, h1, h2⟩ := h _ (parts_split hw x)
  rw [List.mem_map] at h2
  obtain ⟨y, hy, he⟩ := h2
  cases he
  refine ⟨y.recipient, [y.funds], h1, hsub _ ?_⟩
  simp only [SaleParts.msgs, List.mem_append]
  refine Or.inl (Or.inr ?_)
  unfold payoutMsgs
  rw [List.mem_map]
  exact ⟨y, hy, rfl⟩

/-- If the cheapest listings of a collection cannot be paid for, no call that buys any token of the collection at or above
their price completes, whoever makes it, nor can anybody make a collection bid at or above it. -/
theorem C146_jam (hlim : 1 ≤ p.maxLimit) {G : State → Prop} {s : State} (hr : Reach p me G s)
    {ctx : Ctx} {id : Bytes} {a : Ask} (ha : s.asks.get? id = some a)
    (hcheap : ∀ id' a', s.asks.get? id' = some a' → a'.collection = a.collection → a'.details.price.denom = a.details.price.denom →
      a'.details.price.amount ≤ a.details.price.amount → AskRefused blk ctx.q s a')
    {sender : Addr} {funds : List Coin} {m : Exec} (hm : CollCall m) {B : Buy} (hB : BuyBy s sender m B) (hc : B.coll = a.collection)
    (hd : B.limit.denom = a.details.price.denom) (hl : a.details.price.amount ≤ B.limit.amount) {s' : State} {msgs : List Msg}
    (hx : execute p ctx sender funds m s = .ok (s', msgs)) : Refused blk msgs := by
  have hw := Spec.Reach.wf hr
  have noRest : ∀ {b : CBid}, b.collection = B.coll → b.details.price = B.limit → b.matchWithAsk p s = .ok none → False := by
    intro b h1 h2 h
    have := cbidMatch_none hlim h id a ha (by rw [h1, hc]) (by rw [h2, hd])
    rw [h2] at this
    omega
  have sale : ∀ {b : CBid} {a' : Ask}, b.collection = B.coll → b.details.price = B.limit → b.matchWithAsk p s = .ok (some a') →
      ∀ x : SaleParts p ctx a' s.config (.cbid b) true, ∀ left, Refused blk (refund sender left x.msgs) := by
    intro b a' h1 h2 h x left
    obtain ⟨⟨id', e1⟩, e2, e3, e4, e5⟩ := cbidMatch_some hlim h
    have e6 := e5 id a ha (by rw [h1, hc]) (by rw [h2, hd])
    have := hcheap id' a' e1 (by rw [e2, h1, hc]) (by rw [e3, h2, hd]) e6 b.details.finder
    refine parts_refused hw x this ?_
    obtain ⟨post, h5, _⟩ := refund_eq sender left x.msgs
    rw [h5]
    exact fun y hy => List.mem_append_left _ hy
  have hBB : ∀ {B2}, BuyBy s sender m B2 → B2.coll = B.coll ∧ B2.limit = B.limit := by
    intro B2 h2
    cases hB with
    | setCBid => cases h2 with
      | setCBid => exact ⟨rfl, rfl⟩
      | restBid _ _ _ h => exact h.elim
      | restCBid _ _ _ h => exact h.elim
    | buyCollection => cases h2 with
      | buyCollection => exact ⟨rfl, rfl⟩
      | restBid _ _ _ h => exact h.elim
      | restCBid _ _ _ h => exact h.elim
    | updateCBid id d b hb => cases h2 with
      | updateCBid _ _ b' hb' => rw [hb] at hb'; cases hb'; exact ⟨rfl, rfl⟩
      | restBid _ _ _ h => exact h.elim
      | restCBid _ _ _ h => exact h.elim
    | restBid _ _ _ h => cases m <;> first | exact hm.elim | exact h.elim
    | restCBid _ _ _ h => cases m <;> first | exact hm.elim | exact h.elim
    | _ => exact hm.elim
  cases execute_eff hx with
  | restCBid coll d fn left hv hd htr hpr hn hma hl hnew =>
    obtain ⟨e1, e2⟩ := hBB (.setCBid coll d)
    exact (noRest e1 e2 hma).elim
  | updCBid id d b fn fa left hd hb hcr hpr hn hadd hma hl =>
    obtain ⟨e1, e2⟩ := hBB (.updateCBid id d b hb hcr.symm)
    exact (noRest (b := { b with details := d }) e1 e2 hma).elim
  | buyCBid m coll d fn left a hm' hv hd htr hpr hn ha hl x =>
    rcases hm' with rfl | rfl
    · obtain ⟨e1, e2⟩ := hBB (.setCBid coll d)
      exact sale e1 e2 ha x left
    · obtain ⟨e1, e2⟩ := hBB (.buyCollection coll d)
      exact sale e1 e2 ha x left
  | updCBuy id d b a fn fa left hd hb hcr hpr hn hadd ha hl x =>
    obtain ⟨e1, e2⟩ := hBB (.updateCBid id d b hb hcr.symm)
    exact sale (b := { b with details := d }) e1 e2 ha x left
  | sellAsk m coll tok d pay mb hm' => rcases hm' with rfl | rfl <;> exact hm.elim
  | buyBid m _ _ _ _ _ _ hm' => rcases hm' with rfl | rfl <;> exact hm.elim
  | _ => exact hm.elim

/-- An open order to buy this token: a bid on it or a bid on the collection. -/
inductive Spec.Wants (s : State) (c t : Bytes) : Details → Prop where
  | bid (id : Bytes) (b : Bid) (hb : s.bids.get? id = some b) (hc : b.collection = c) (ht : b.tokenId = t) : Wants s c t b.details
  | cbid (id : Bytes) (b : CBid) (hb : s.cbids.get? id = some b) (hc : b.collection = c) : Wants s c t b.details

/-- If the best bids for a token cannot be paid out, no call completes that lists or sells it at or below their price. -/
theorem C147_jam (hlim : 1 ≤ p.maxLimit) (hns : NoSlash p) {G : State → Prop} {s : State} (hr : Reach p me G s)
    {ctx : Ctx} {S : Sell} {d : Details} (hd : Wants s S.coll S.tok d) (hden : d.price.denom = S.limit.denom)
    (hamt : S.limit.amount ≤ d.price.amount)
    (hbest : ∀ d', Wants s S.coll S.tok d' → d'.price.denom = S.limit.denom → d.price.amount ≤ d'.price.amount →
      BidRefused blk ctx.q s S.coll d')
    {sender : Addr} {funds : List Coin} {m : Exec} (hm : AskCall m) (hS : SellBy s sender m S) {s' : State} {msgs : List Msg}
    (hx : execute p ctx sender funds m s = .ok (s', msgs)) : Refused blk msgs := by
  have hw := Spec.Reach.wf hr
  have idx : ∀ {b : Bid} {id : Bytes} {a' : Ask}, s.bids.get? id = some b → p.valid a'.collection = true →
      indexStr b.collection b.tokenId = indexStr a'.collection a'.tokenId → b.collection = a'.collection ∧ b.tokenId = a'.tokenId :=
    fun hb hv h => indexStr_inj (hns _ (hw.bid hb).2.1) (hns _ hv) h
  have noRest : ∀ {a' : Ask}, a'.collection = S.coll → a'.tokenId = S.tok → a'.details.price = S.limit →
      a'.matchWithBid p s = none → False := by
    intro a' h1 h2 h3 h
    obtain ⟨k1, k2⟩ := matchWithBid_none hlim h
    cases hd with
    | bid id b hb hc ht =>
      have := k1 id b hb (by rw [hc, ht, h1, h2]) (by rw [h3]; exact hden)
      rw [h3] at this; omega
    | cbid id b hb hc =>
      have := k2 id b hb (by rw [hc, h1]) (by rw [h3]; exact hden)
      rw [h3] at this; omega
  have sale : ∀ {a' : Ask} {mb : MatchingBid}, p.valid a'.collection = true → a'.collection = S.coll → a'.tokenId = S.tok →
      a'.details.price = S.limit → a'.matchWithBid p s = some mb → ∀ x : SaleParts p ctx a' s.config mb false,
      ∀ ms, (∀ y ∈ x.msgs, y ∈ ms) → Refused blk ms := by
    intro a' mb hv h1 h2 h3 h x ms hms
    refine parts_refused hw x ?_ hms
    cases mb with
    | bid b =>
      obtain ⟨⟨id, e1⟩, e2, e3, e4, e5, e6⟩ := matchWithBid_bid hlim h
      obtain ⟨e7, e8⟩ := idx e1 hv e2
      have hle : d.price.amount ≤ b.details.price.amount := by
        cases hd with
        | bid id' b' hb hc ht => exact e5 id' b' hb (by rw [hc, ht, h1, h2]) (by rw [h3]; exact hden)
        | cbid id' b' hb hc => exact e6 id' b' hb (by rw [hc, h1]) (by rw [h3]; exact hden)
      have := hbest b.details (.bid id b e1 (e7.trans h1) (e8.trans h2)) (by rw [e3, h3]) hle a'.assetRecipient a'.details.finder
      rw [← h1] at this
      exact this
    | cbid b =>
      obtain ⟨⟨id, e1⟩, e2, e3, e4, e5, e6⟩ := matchWithBid_cbid hlim h
      have hle : d.price.amount ≤ b.details.price.amount := by
        cases hd with
        | bid id' b' hb hc ht => exact Nat.le_of_lt (e5 id' b' hb (by rw [hc, ht, h1, h2]) (by rw [h3]; exact hden))
        | cbid id' b' hb hc => exact e6 id' b' hb (by rw [hc, h1]) (by rw [h3]; exact hden)
      have := hbest b.details (.cbid id b e1 (e2.trans h1)) (by rw [e3, h3]) hle a'.assetRecipient a'.details.finder
      rw [← h1] at this
      exact this
  cases execute_eff hx with
  | restAsk coll tok d' pay hv hd' hown htr hpr hf hpos hfee hmn hnew =>
    cases hS with
    | setAsk => exact (noRest (a' := Ask.new p sender coll tok d') rfl rfl rfl hmn).elim
    | resting _ _ _ h => exact h.elim
  | sellAsk m coll tok d' pay mb hm' hv hd' hown htr hpr hf hpos hfee hmb x =>
    rcases hm' with rfl | rfl
    · cases hS with
      | setAsk => exact sale (a' := Ask.new p sender coll tok d') hv rfl rfl rfl hmb x _ (fun y hy => List.mem_cons_of_mem _ hy)
      | resting _ _ _ h => exact h.elim
    · cases hS with
      | sellNft => exact sale (a' := Ask.new p sender coll tok d') hv rfl rfl rfl hmb x _ (fun y hy => List.mem_cons_of_mem _ hy)
      | resting _ _ _ h => exact h.elim
  | updAsk id d' a hf hd' ha hcr hpr hmn =>
    cases hS with
    | updateAsk _ _ a2 ha2 =>
      rw [ha] at ha2; cases ha2
      exact (noRest (a' := { a with details := d' }) rfl rfl rfl hmn).elim
    | resting _ _ _ h => exact h.elim
  | updSell id d' a mb hf hd' ha hcr hpr hmb x =>
    cases hS with
    | updateAsk _ _ a2 ha2 =>
      rw [ha] at ha2; cases ha2
      exact sale (a' := { a with details := d' }) (hw.ask ha).2.2.1 rfl rfl rfl hmb x _ (fun y hy => hy)
    | resting _ _ _ h => exact h.elim
  | buyBid m _ _ _ _ _ _ hm' => rcases hm' with rfl | rfl <;> exact hm.elim
  | buyCBid m _ _ _ _ _ hm' => rcases hm' with rfl | rfl <;> exact hm.elim
  | _ => exact hm.elim

/-- A trade completes if nobody who is paid for it is refused, nor the payee of the listing fee, nor the buyer. -/
theorem C145_v2_sale (hlim : 1 ≤ p.maxLimit) {w : World State} (h : Run p me honest (w, [])) {q : Queries}
    (hq : (sys p me honest).queriesOk w q) {sender : Addr} {funds : List Coin} {m : Exec} {s' : State} {msgs : List Msg}
    (hne : sender ≠ me) (hsb : ¬ blk sender) (hfunds : ∀ d, amountOf d funds ≤ w.bank sender d)
    (hx : execute p ((sys p me honest).ctx w q) sender funds m w.st = .ok (s', msgs)) {S : Sell} {B : Buy}
    (x : Sale q funds w.st s' m msgs S B) (hh : honest S.coll) {o : Addr}
    (ho : w.owner S.coll S.tok = some o) (hauth : o = me ∨ w.approved S.coll S.tok = true)
    (hfee : Lists m = true → ¬ blk w.st.config.feeManager) (hpay : ∀ y ∈ x.pays, ¬ blk y.1) (hB : ¬ blk B.who) :
    ∃ w', (sys p me honest).Completes blk w sender funds s' msgs w' ∧ w'.st = s' ∧ w'.owner S.coll S.tok = some B.nftTo := by
  have hnf := sale_nfts x
  obtain ⟨_, h3⟩ := C145_v2_call (blk := blk) hlim h hq hne hsb hfunds hx (by
    intro c t to hto
    obtain ⟨rfl, rfl, -⟩ := (hnf _ _ _).mp hto
    exact ⟨hh, o, ho, hauth⟩)
  obtain ⟨w', h4, h5, _, h6, _⟩ := h3 (by
    rintro ⟨to, cs, hb, hm⟩
    rw [x.hmsgs] at hm
    simp only [List.mem_append, List.mem_cons, List.mem_map, reduceCtorEq, false_or] at hm
    rcases hm with (hm | ⟨y, hy, e⟩) | hm
    · rcases x.hpre _ hm with ⟨h1, e⟩ | e
      · cases e; exact hfee h1 hb
      · cases e
    · cases e; exact hpay y hy hb
    · obtain ⟨cs', e⟩ := x.hpost _ hm
      cases e; exact hB hb)
  exact ⟨w', h4, h5, h6 _ _ _ ((hnf _ _ _).mpr ⟨rfl, rfl, rfl⟩)⟩

/-- Part that holds: a purchase of any token of a collection completes if nobody has to be paid for any of its cheapest
listings who is refused. -/
theorem C146_partial (hlim : 1 ≤ p.maxLimit) (hinj : HashInj p) (hpf : PrefixFree p) (hns : NoSlash p) {w : World State}
    (h : RunB p me honest blk (w, [])) {q : Queries} (hq : (sys p me honest).queriesOk w q) {c : Bytes} (hh : honest c)
    {buyer : Addr} {funds : List Coin} {d : Details} {s' : State} {msgs : List Msg} (hne : buyer ≠ me) (hsb : ¬ blk buyer)
    (hfunds : ∀ dn, amountOf dn funds ≤ w.bank buyer dn)
    (hx : execute p ((sys p me honest).ctx w q) buyer funds (.buyCollectionNft c d) w.st = .ok (s', msgs))
    (hall : ∀ id a, w.st.asks.get? id = some a → a.collection = c → a.details.price.denom = d.price.denom →
      (∀ id' a', w.st.asks.get? id' = some a' → a'.collection = c → a'.details.price.denom = d.price.denom →
        a.details.price.amount ≤ a'.details.price.amount) →
      ∀ pays, split a.details.price.amount (a.details.recipient.getD a.creator)
        (feeShares w.st.config a.details.finder d.finder ++ royaltyShare q w.st.config c) = some pays → ∀ y ∈ pays, ¬ blk y.1) :
    ∃ w', (sys p me honest).Completes blk w buyer funds s' msgs w' ∧ w'.st = s' := by
  have hr := Spec.Run.reach h.run
  by_cases ht : Trades (.buyCollectionNft c d) s' me msgs
  · obtain ⟨S, B, T⟩ := trade_main hr hlim rfl hx ht
    obtain ⟨x⟩ := T.sale
    have hsame := (T.same hns hinj hpf).1
    have hch := T.cheap trivial
    have hli := T.limit
    have hpays := x.hpays
    cases T.buy with
    | buyCollection =>
      cases T.sell with
      | resting _ aid a _ ha =>
        subst hsame
        obtain ⟨w', h1, h2, _⟩ := C145_v2_sale (blk := blk) hlim h.run hq hne hsb hfunds hx x hh (C07_custody hlim h.run ha hh)
          (Or.inl rfl) (fun hl => nomatch hl) (hall aid a ha rfl hli.1 hch x.pays hpays) hsb
        exact ⟨w', h1, h2⟩
    | restBid _ _ _ hm => exact hm.elim
    | restCBid _ _ _ hm => exact hm.elim
  · have hno : ∀ c' t to, Msg.nft c' t to ∉ msgs := fun c' t to hm => ht ⟨c', t, to, hm, (fun _ e => nomatch e),
      (fun ⟨_, _, _, _, e, _⟩ => nomatch e)⟩
    obtain ⟨_, h3⟩ := C145_v2_call (blk := blk) hlim h.run hq hne hsb hfunds hx (fun c' t to hm => absurd hm (hno c' t to))
    obtain ⟨w', h4, h5, _⟩ := h3 (by
      rintro ⟨to, cs, hb, hm⟩
      rcases C04_refund hlim hr (m := .buyCollectionNft c d) trivial hx with ⟨S, B, _, _, _, x, _⟩ | ⟨_, _, hs, _⟩
      · exact hno _ _ _ ((sale_nfts x _ _ _).mpr ⟨rfl, rfl, rfl⟩)
      · obtain ⟨_, e⟩ := hs _ hm
        cases e; exact hsb hb)
    exact ⟨w', h4, h5⟩

/-- Part that holds: listing above all bids completes. -/
theorem C147_partial (hlim : 1 ≤ p.maxLimit) {w : World State} (h : Run p me honest (w, [])) {q : Queries}
    (hq : (sys p me honest).queriesOk w q) {sender : Addr} {funds : List Coin} {c t : Bytes} {d : Details} {s' : State} {msgs : List Msg}
    (hne : sender ≠ me) (hsb : ¬ blk sender) (hfunds : ∀ d, amountOf d funds ≤ w.bank sender d) (hh : honest c)
    (hown : w.owner c t = some sender) (hauth : w.approved c t = true) (hfee : ¬ blk w.st.config.feeManager)
    (hx : execute p ((sys p me honest).ctx w q) sender funds (.setAsk c t d) w.st = .ok (s', msgs))
    (habove : ∀ d', Wants w.st c t d' → d'.price.denom = d.price.denom → d'.price.amount < d.price.amount) (hns : NoSlash p) :
    ∃ w', (sys p me honest).Completes blk w sender funds s' msgs w' ∧ w'.st = s' ∧ w'.owner c t = some me ∧
      s'.asks.get? (askId p c t) = some (Ask.new p sender c t d) := by
  have hw := Spec.Reach.wf (Spec.Run.reach h)
  cases execute_eff hx with
  | restAsk _ _ _ pay hv hd hown' htr hpr hf hpos hfee' hm hnew =>
    obtain ⟨_, h3⟩ := C145_v2_call (blk := blk) hlim h hq hne hsb hfunds hx (by
      intro c' t' to hto
      simp only [List.mem_cons, reduceCtorEq, Msg.nft.injEq, List.not_mem_nil, or_false, false_or] at hto
      obtain ⟨rfl, rfl, rfl⟩ := hto
      exact ⟨hh, sender, hown, Or.inr hauth⟩)
    obtain ⟨w', h4, h5, _, h6, _⟩ := h3 (by
      rintro ⟨to, cs, hb, hm⟩
      simp only [List.mem_cons, reduceCtorEq, Msg.send.injEq, List.not_mem_nil, or_false] at hm
      exact hfee (hm.1 ▸ hb))
    exact ⟨w', h4, h5, h6 _ _ _ (by simp [Sys.ctx, sys]), by simp⟩
  | sellAsk _ _ _ _ pay mb hm hv hd hown' htr hpr hf hpos hfee' hmb x =>
    exfalso
    rcases hm with hm | hm <;> cases hm
    cases mb with
    | bid b =>
      obtain ⟨⟨id, e1⟩, e2, e3, e4, _⟩ := matchWithBid_bid hlim hmb
      obtain ⟨e7, e8⟩ := indexStr_inj (hns _ (hw.bid e1).2.1) (hns _ hv) e2
      have := habove _ (.bid id b e1 e7 e8) e3
      exact absurd this (Nat.not_lt.2 e4)
    | cbid b =>
      obtain ⟨⟨id, e1⟩, e2, e3, e4, _⟩ := matchWithBid_cbid hlim hmb
      have := habove _ (.cbid id b e1 e2) e3
      exact absurd this (Nat.not_lt.2 e4)
  | buyBid m _ _ _ _ _ _ hm' => rcases hm' with hm' | hm' <;> cases hm'
  | buyCBid m _ _ _ _ _ hm' => rcases hm' with hm' | hm' <;> cases hm'

/-- A purchase of any token of a collection that the contract accepts, by an account that is not refused, completes if some
listing is within its limit for which only accounts have to be paid that are not refused. -/
def C146_statement : Prop :=
  ∀ (p : Params) (me : Addr) (honest blk : Addr → Prop), 1 ≤ p.maxLimit → HashInj p → PrefixFree p → NoSlash p →
  ∀ (w : World State) (q : Queries), RunB p me honest blk (w, []) → (sys p me honest).queriesOk w q →
  ∀ (id : Bytes) (a : Ask), w.st.asks.get? id = some a → (∀ c, honest c) →
  ∀ (buyer : Addr) (funds : List Coin) (d : Details) (s' : State) (msgs : List Msg), buyer ≠ me → ¬ blk buyer →
  d.price.denom = a.details.price.denom → a.details.price.amount ≤ d.price.amount →
  (∀ pays, split a.details.price.amount (a.details.recipient.getD a.creator)
    (feeShares w.st.config a.details.finder d.finder ++ royaltyShare q w.st.config a.collection) = some pays → ∀ y ∈ pays, ¬ blk y.1) →
  (∀ dn, amountOf dn funds ≤ w.bank buyer dn) →
  execute p ((sys p me honest).ctx w q) buyer funds (.buyCollectionNft a.collection d) w.st = .ok (s', msgs) →
  ∃ w', (sys p me honest).StepsB blk ({ w with bank := moveFunds w.bank buyer me funds, st := s' }, msgs) (w', [])

/-- An owner that is not refused and asks for payment to accounts that are not refused can list its token: the call
completes if the contract accepts it. -/
def C147_statement : Prop :=
  ∀ (p : Params) (me : Addr) (honest blk : Addr → Prop), 1 ≤ p.maxLimit → HashInj p → PrefixFree p → NoSlash p →
  ∀ (w : World State) (q : Queries), RunB p me honest blk (w, []) → (sys p me honest).queriesOk w q → (∀ c, honest c) →
  ∀ (owner : Addr) (funds : List Coin) (c t : Bytes) (d : Details) (s' : State) (msgs : List Msg), owner ≠ me → ¬ blk owner →
  w.owner c t = some owner → w.approved c t = true → ¬ blk w.st.config.feeManager → ¬ blk (d.recipient.getD owner) →
  d.finder = none → (∀ r, royaltyOf q w.st.config.royaltyRegistry c = some r → ¬ blk r.recipient) →
  (∀ dn, amountOf dn funds ≤ w.bank owner dn) →
  execute p ((sys p me honest).ctx w q) owner funds (.setAsk c t d) w.st = .ok (s', msgs) →
  ∃ w', (sys p me honest).StepsB blk ({ w with bank := moveFunds w.bank owner me funds, st := s' }, msgs) (w', [])

namespace Sample

/-- the account of a module -/
def modAcc : Addr := [3, 1, 3]
abbrev isMod : Addr → Prop := fun a => a = modAcc
def tokB : Bytes := [50]

/-- alice owns token 1, carol token 2 -/
def rj0 : World State where
  bank a d := if d = ust ∧ (a = bob ∨ a = carol ∨ a = alice) then 1000 else 0
  owner c t := if c = coll ∧ t = tok then some alice else if c = coll ∧ t = tokB then some carol else none
  approved _ _ := true
  time := 1000000000000
  height := 7
  st := s0

def qv (w : World State) : Queries := { q none none with ownerOf := w.owner }

abbrev MB := sys P self hon

def rjAt (w : World State) (sender : Addr) (funds : List Coin) (m : Exec) : World State :=
  { w with bank := moveFunds w.bank sender self funds, st := (run (MB.ctx w (qv w)) sender funds m w.st).1 }

theorem rjStep {x y : World State × List Msg} {e : Entry Exec Empty} (h : RunB P self hon isMod x) (hd : MB.Did x e y)
    (he : e.accepted isMod) : RunB P self hon isMod y := by
  obtain ⟨c, w0, hi, hs⟩ := h
  exact ⟨c, w0, hi, hs.tail hd he⟩

theorem rjCall {w : World State} (hr : RunB P self hon isMod (w, [])) {sender : Addr} {funds : List Coin} {m : Exec} {msgs : List Msg}
    (hne : sender ≠ self) (hmod : sender ≠ modAcc) (hfunds : ∀ d, amountOf d funds ≤ w.bank sender d)
    (hs : ok (MB.ctx w (qv w)) sender funds m w.st = true) (hm : (run (MB.ctx w (qv w)) sender funds m w.st).2 = msgs) :
    RunB P self hon isMod (rjAt w sender funds m, msgs) := by
  have h1 := Sys.Did.call (S := MB) w [] sender funds m (qv w) (run (MB.ctx w (qv w)) sender funds m w.st).1
    (run (MB.ctx w (qv w)) sender funds m w.st).2 trivial hne hfunds (fun _ _ _ => rfl) (run_eq hs)
  rw [hm, List.append_nil] at h1
  exact rjStep hr h1 hmod

theorem rjUst {n : Nat} {bank : Denom → Nat} (h : n ≤ bank ust) : ∀ d, amountOf d [⟨ust, n⟩] ≤ bank d := amountOf_one h

/-- the admin sets the listing fee -/
def rj1 : World State := rjAt rj0 admin [] (.setListingFee ⟨ust, 5⟩)
theorem rjRun1 : RunB P self hon isMod (rj1, []) :=
  rjCall ⟨cfg, rj0, init0, .refl _⟩ (by decide) (by decide) (fun _ => Nat.zero_le _) (by decide +kernel) (by decide +kernel)

/-- alice lists token 1 for 100 -/
def rj2 : World State := rjAt rj1 alice [⟨ust, 5⟩] (.setAsk coll tok (det 100))
theorem rjRun2 : RunB P self hon isMod (rj2, [.send feeMgr [⟨ust, 5⟩], .nft coll tok self]) :=
  rjCall rjRun1 (by decide) (by decide) (rjUst (by decide +kernel)) (by decide +kernel) (by decide +kernel)
def rj3 : World State := { rj2 with bank := moveFunds rj2.bank self feeMgr [⟨ust, 5⟩], owner := setOwner rj2.owner coll tok self }
theorem rjRun3 : RunB P self hon isMod (rj3, []) :=
  rjStep (rjStep rjRun2 (Sys.Did.send (S := MB) rj2 feeMgr [⟨ust, 5⟩] _ (by simp) (by decide) (rjUst (by decide +kernel))) (by
      show feeMgr ≠ modAcc; decide))
    (Sys.Did.nft (S := MB) _ coll tok self [] alice trivial (by decide +kernel) (Or.inr rfl)) trivial

/-- carol lists token 2 for 50, to be paid to the module -/
def rjDet : Details := ⟨⟨ust, 50⟩, some modAcc, none⟩
def rj4 : World State := rjAt rj3 carol [⟨ust, 5⟩] (.setAsk coll tokB rjDet)
theorem rjRun4 : RunB P self hon isMod (rj4, [.send feeMgr [⟨ust, 5⟩], .nft coll tokB self]) :=
  rjCall rjRun3 (by decide) (by decide) (rjUst (by decide +kernel)) (by decide +kernel) (by decide +kernel)
def rj5 : World State := { rj4 with bank := moveFunds rj4.bank self feeMgr [⟨ust, 5⟩], owner := setOwner rj4.owner coll tokB self }
theorem rjRun5 : RunB P self hon isMod (rj5, []) :=
  rjStep (rjStep rjRun4 (Sys.Did.send (S := MB) rj4 feeMgr [⟨ust, 5⟩] _ (by simp) (by decide) (rjUst (by decide +kernel))) (by
      show feeMgr ≠ modAcc; decide))
    (Sys.Did.nft (S := MB) _ coll tokB self [] carol trivial (by decide +kernel) (Or.inr rfl)) trivial

/-- bob bids 120 on the collection, with the module as finder -/
def rj6 : World State := rjAt rj1 bob [⟨ust, 120⟩] (.setCollectionBid coll (det' 120 modAcc))
theorem rjRun6 : RunB P self hon isMod (rj6, []) :=
  rjCall rjRun1 (by decide) (by decide) (rjUst (by decide +kernel)) (by decide +kernel) (by decide +kernel)

theorem rjOk1 : ok (MB.ctx rj5 (qv rj5)) bob [⟨ust, 150⟩] (.buyCollectionNft coll (det 150)) rj5.st = true := by decide +kernel
theorem rjOk2 : ok (MB.ctx rj6 (qv rj6)) alice [⟨ust, 5⟩] (.setAsk coll tok (det 100)) rj6.st = true := by decide +kernel

/-- bob bids 80 for token 1 -/
def rj7 : World State := rjAt rj1 bob [⟨ust, 80⟩] (.setBid coll tok (det 80))
theorem rjRun7 : RunB P self hon isMod (rj7, []) :=
  rjCall rjRun1 (by decide) (by decide) (rjUst (by decide +kernel)) (by decide +kernel) (by decide +kernel)
def rjBid : Bytes × Bid := rj7.st.bids.l.head (by decide +kernel)
theorem rjBid_get : rj7.st.bids.get? rjBid.1 = some rjBid.2 := AMap.mem_iff.mp (List.head_mem (by decide +kernel))
def rjCBid : Bytes × CBid := rj6.st.cbids.l.head (by decide +kernel)
theorem rjCBid_get : rj6.st.cbids.get? rjCBid.1 = some rjCBid.2 := AMap.mem_iff.mp (List.head_mem (by decide +kernel))

example := C145_v2_bid (blk := isMod) (by decide) rjRun7 rjBid_get (qv rj7) (fun _ _ _ => rfl)
/-- the bid that names the module as finder -/
example := C145_v2_cbid (blk := isMod) (by decide) rjRun6 rjCBid_get (qv rj6) (fun _ _ _ => rfl)
/-- the listing that is to be paid to the module -/
example := C145_v2_ask (blk := isMod) (by decide) rjRun5 (id := askId P coll tokB) (a := Ask.new P carol coll tokB rjDet)
  (by decide +kernel) trivial (qv rj5) (fun _ _ _ => rfl)
/-- a call that completes and one that does not -/
example := C145_v2_call (blk := isMod) (by decide) rjRun1.run (q := qv rj1) (fun _ _ _ => rfl) (sender := alice) (funds := [⟨ust, 5⟩])
  (m := .setAsk coll tok (det 100)) (by decide) (by decide) (rjUst (by decide +kernel)) (run_eq (by decide +kernel)) (by
    intro c t to hm
    have hm : Msg.nft c t to ∈ [Msg.send feeMgr [⟨ust, 5⟩], .nft coll tok self] := hm
    simp only [List.mem_cons, reduceCtorEq, Msg.nft.injEq, List.not_mem_nil, or_false, false_or] at hm
    obtain ⟨rfl, rfl, rfl⟩ := hm
    exact ⟨trivial, alice, by decide +kernel, Or.inr rfl⟩)
example : ¬ Refused isMod [Msg.send feeMgr [⟨ust, 5⟩], .nft coll tok self] := by
  rintro ⟨to, cs, h, hm⟩
  simp at hm
  exact absurd (hm.1.symm.trans h) (by decide)

theorem rjRefused : AskRefused isMod (qv rj5) rj5.st (Ask.new P carol coll tokB rjDet) := by
  refine C146_recipient rfl (fun taker => ?_)
  cases taker with
  | none => decide +kernel
  | some x =>
    have e : (feeShares rj5.st.config none (some x)).map Prod.snd = (feeShares rj5.st.config none (some [])).map Prod.snd := rfl
    show charged 50 (feeShares rj5.st.config none (some x) ++ royaltyShare (qv rj5) rj5.st.config coll) < 50
    unfold charged
    rw [show (fun f : Addr × Nat => feeDue 50 f.2) = feeDue 50 ∘ Prod.snd from rfl, ← List.map_map, List.map_append, e]
    decide +kernel
theorem rjCheap : ∀ id a, rj5.st.asks.get? id = some a → a.details.price.amount ≤ 50 → a = Ask.new P carol coll tokB rjDet := by
  intro id a h
  have : ∀ e ∈ rj5.st.asks.l, e.2.details.price.amount ≤ 50 → e.2 = Ask.new P carol coll tokB rjDet := by decide +kernel
  exact this (id, a) (AMap.mem_iff.mpr h)

example := C146_jam (blk := isMod) (by decide) (Spec.Run.reach rjRun5.run) (ctx := MB.ctx rj5 (qv rj5)) (id := askId P coll tokB)
  (a := Ask.new P carol coll tokB rjDet) (by decide +kernel) (fun id' a' h _ _ hle => by rw [rjCheap id' a' h hle]; exact rjRefused)
  (m := .buyCollectionNft coll (det 150)) trivial (.buyCollection coll (det 150)) rfl rfl (by decide) (run_eq rjOk1)

example := C147_jam (blk := isMod) (by decide) noSlash (Spec.Run.reach rjRun6.run) (ctx := MB.ctx rj6 (qv rj6))
  (S := ⟨none, coll, tok, alice, ⟨ust, 100⟩, alice, none⟩) (.cbid _ _ rjCBid_get (by decide +kernel)) (by decide +kernel) (by decide +kernel)
  (fun d' hd _ hle => by
    cases hd with
    | bid id b hb =>
      have : ∀ e ∈ rj6.st.bids.l, e.1 ≠ e.1 := by decide +kernel
      exact absurd rfl (this (id, b) (AMap.mem_iff.mpr hb))
    | cbid id b hb =>
      have : ∀ e ∈ rj6.st.cbids.l, e.2.details.finder = some modAcc := by decide +kernel
      exact C147_finder (this (id, b) (AMap.mem_iff.mpr hb)) rfl (by decide +kernel) (by decide +kernel))
  (m := .setAsk coll tok (det 100)) trivial (.setAsk coll tok (det 100)) (run_eq rjOk2)

/-- alice can still list above the bid -/
example := C147_partial (blk := isMod) (by decide) rjRun6.run (q := qv rj6) (fun _ _ _ => rfl) (sender := alice) (funds := [⟨ust, 5⟩])
  (c := coll) (t := tok) (d := det 130) (by decide) (by decide) (rjUst (by decide +kernel)) trivial (by decide +kernel) rfl (by decide +kernel)
  (run_eq (by decide +kernel)) (fun d' hd _ => by
    cases hd with
    | bid id b hb =>
      have : ∀ e ∈ rj6.st.bids.l, e.1 ≠ e.1 := by decide +kernel
      exact absurd rfl (this (id, b) (AMap.mem_iff.mpr hb))
    | cbid id b hb =>
      have : ∀ e ∈ rj6.st.cbids.l, e.2.details.price.amount < 130 := by decide +kernel
      exact this (id, b) (AMap.mem_iff.mpr hb)) noSlash

/-- with alice's listing alone, bob buys -/
example := C146_partial (blk := isMod) (by decide) hashInj prefixFree noSlash rjRun3 (q := qv rj3) (fun _ _ _ => rfl) (c := coll) trivial
  (buyer := bob) (funds := [⟨ust, 150⟩]) (d := det 150) (by decide) (by decide) (rjUst (by decide +kernel)) (run_eq (by decide +kernel))
  (fun id a ha _ _ _ pays hp y hy => by
    have h1 : ∀ e ∈ rj3.st.asks.l, e.2 = Ask.new P alice coll tok (det 100) := by decide +kernel
    obtain rfl := h1 (id, a) (AMap.mem_iff.mpr ha)
    have h : ∀ y ∈ (split 100 alice (feeShares rj3.st.config none none ++
        royaltyShare (qv rj3) rj3.st.config coll)).getD [], y.1 ≠ modAcc := by decide +kernel
    have hp : split 100 alice (feeShares rj3.st.config none none ++ royaltyShare (qv rj3) rj3.st.config coll) = some pays := hp
    exact h y (by rw [hp]; exact hy))

end Sample

theorem C146_violated : ¬ C146_statement := by
  intro H
  obtain ⟨w', hs⟩ := H Sample.P Sample.self Sample.hon Sample.isMod (by decide) Sample.hashInj Sample.prefixFree Sample.noSlash Sample.rj5
    (Sample.qv Sample.rj5) Sample.rjRun5 (fun _ _ _ => rfl) (askId Sample.P Sample.coll Sample.tok)
    (Ask.new Sample.P Sample.alice Sample.coll Sample.tok (Sample.det 100)) (by decide +kernel) (fun _ => trivial) Sample.bob [⟨Sample.ust, 150⟩] (Sample.det 150)
    (Sample.run (Sample.MB.ctx Sample.rj5 (Sample.qv Sample.rj5)) Sample.bob [⟨Sample.ust, 150⟩] (.buyCollectionNft Sample.coll (Sample.det 150)) Sample.rj5.st).1
    (Sample.run (Sample.MB.ctx Sample.rj5 (Sample.qv Sample.rj5)) Sample.bob [⟨Sample.ust, 150⟩] (.buyCollectionNft Sample.coll (Sample.det 150)) Sample.rj5.st).2
    (by decide) (by decide) rfl (by decide) (by
      intro pays hp y hy
      have h : ∀ y ∈ (split 100 Sample.alice (feeShares Sample.rj5.st.config none none ++
          royaltyShare (Sample.qv Sample.rj5) Sample.rj5.st.config Sample.coll)).getD [], y.1 ≠ Sample.modAcc := by decide +kernel
      have hp : split 100 Sample.alice (feeShares Sample.rj5.st.config none none ++
          royaltyShare (Sample.qv Sample.rj5) Sample.rj5.st.config Sample.coll) = some pays := hp
      exact h y (by rw [hp]; exact hy))
    (Sample.rjUst (by decide +kernel)) (Sample.run_eq Sample.rjOk1)
  refine Refused.never ?_ w' hs
  exact ⟨Sample.modAcc, [⟨Sample.ust, 46⟩], rfl, by decide +kernel⟩

theorem C147_violated : ¬ C147_statement := by
  intro H
  obtain ⟨w', hs⟩ := H Sample.P Sample.self Sample.hon Sample.isMod (by decide) Sample.hashInj Sample.prefixFree Sample.noSlash Sample.rj6
    (Sample.qv Sample.rj6) Sample.rjRun6 (fun _ _ _ => rfl) (fun _ => trivial) Sample.alice [⟨Sample.ust, 5⟩] Sample.coll Sample.tok (Sample.det 100)
    (Sample.run (Sample.MB.ctx Sample.rj6 (Sample.qv Sample.rj6)) Sample.alice [⟨Sample.ust, 5⟩] (.setAsk Sample.coll Sample.tok (Sample.det 100)) Sample.rj6.st).1
    (Sample.run (Sample.MB.ctx Sample.rj6 (Sample.qv Sample.rj6)) Sample.alice [⟨Sample.ust, 5⟩] (.setAsk Sample.coll Sample.tok (Sample.det 100)) Sample.rj6.st).2
    (by decide) (by decide) (by decide +kernel) rfl (by decide +kernel) (by decide +kernel) rfl (by
      intro r hr
      have h : (royaltyOf (Sample.qv Sample.rj6) Sample.rj6.st.config.royaltyRegistry Sample.coll).map (·.recipient) = some Sample.artist := by decide +kernel
      rw [hr] at h
      have h : r.recipient = Sample.artist := Option.some.inj h
      show r.recipient ≠ Sample.modAcc
      rw [h]
      decide)
    (Sample.rjUst (by decide +kernel)) (Sample.run_eq Sample.rjOk2)
  refine Refused.never ?_ w' hs
  exact ⟨Sample.modAcc, [⟨Sample.ust, 1⟩], rfl, by decide +kernel⟩

end Verif.V2

/-
Marketplace v2: properties of funds and custody (C03, C04, C05, C06, C07, C08, C18).
-/
import Verif.V2.Sample
import Verif.V2.FundLemmas

namespace Verif.V2
open Verif Spec

section
variable {p : Params} {me : Addr} {G : State → Prop} {honest : Addr → Prop}

/-! ### C03 solvency -/

/-- At every point of every run, also inside calls made by foreign code, the balance covers all open bids plus
everything still to be paid. -/
theorem C03_backed (hlim : 1 ≤ p.maxLimit) {w : World State} {pending : List Msg}
    (h : Run p me honest (w, pending)) (d : Denom) :
    amountOf d (bidCoins w.st) + paidOut d pending ≤ w.bank me d := by
  have := Spec.Run.solvent hlim h d
  rw [← escrow_eq, ← outflow_eq]
  exact this

namespace Sample
/-- a chain in which bob and carol have money and alice owns the token -/
def w0 : World State where
  bank a d := if d = ust ∧ (a = bob ∨ a = carol ∨ a = alice) then 1000 else 0
  owner c t := if c = coll ∧ t = tok then some alice else none
  approved _ _ := true
  time := 1000
  height := 7
  st := s0

/-- every collection conforms -/
def hon : Addr → Prop := fun _ => True
abbrev M := sys P self hon

theorem run0 : Run P self hon (w0, []) := ⟨cfg, w0, init0, .refl _⟩

theorem call1 {w : World State} {stack : List Msg} (hr : Run P self hon (w, stack)) (hc : stack = [])
    {sender : Addr} {funds : List Coin} {m : Exec} {o : Option Addr} (hne : sender ≠ self)
    (hfunds : ∀ d, amountOf d funds ≤ w.bank sender d) (hq : ∀ c t, (q o none).ownerOf c t = w.owner c t)
    (hs : ok (M.ctx w (q o none)) sender funds m w.st = true) :
    Run P self hon ({ w with bank := moveFunds w.bank sender self funds,
                             st := (run (M.ctx w (q o none)) sender funds m w.st).1 },
                    (run (M.ctx w (q o none)) sender funds m w.st).2) := by
  subst hc
  have := Sys.Step.call (S := M) w [] sender funds m (q o none) _ _ trivial hne hfunds (fun c t _ => hq c t) (run_eq hs)
  rw [List.append_nil] at this
  exact Spec.Run.step hr this

/-- a bid of 80 by bob, sent with 100: afterwards the machine still has to return 20 -/
theorem run1 : Run P self hon
    ({ w0 with bank := moveFunds w0.bank bob self [⟨ust, 100⟩],
               st := (run (M.ctx w0 (q (some alice) none)) bob [⟨ust, 100⟩] (.setBid coll tok (det 80)) w0.st).1 },
     (run (M.ctx w0 (q (some alice) none)) bob [⟨ust, 100⟩] (.setBid coll tok (det 80)) w0.st).2) := by
  refine call1 run0 rfl (by decide) ?_ ?_ (by decide +kernel)
  · intro d
    simp only [amountOf, Coin.inDenom, w0]
    by_cases h : d = ust
    · subst h; decide
    · rw [if_neg (fun e => h e.symm)]; exact Nat.zero_le _
  · intro c t; rfl
example : amountOf ust (bidCoins (run (M.ctx w0 (q (some alice) none)) bob [⟨ust, 100⟩] (.setBid coll tok (det 80)) w0.st).1) = 80 ∧
    paidOut ust (run (M.ctx w0 (q (some alice) none)) bob [⟨ust, 100⟩] (.setBid coll tok (det 80)) w0.st).2 = 20 := by decide +kernel
example := C03_backed (by decide) run1 ust
end Sample

/-! ### C04 every coin is accounted for -/

/-- Calls whose attached coins are neither used nor returned. -/
def Spec.Keeps : Exec → Bool
  | .updateConfig _ | .updateCollectionDenom _ _ | .setListingFee _ | .removeListingFee _
  | .acceptBid _ _ | .acceptCollectionBid _ _ _ => true
  | _ => false

/-- Coins attached + escrow before = coins paid out + escrow after (+ attached coins, if the call keeps them). -/
theorem C04_account (hlim : 1 ≤ p.maxLimit) (hinj : HashInj p) {ctx : Ctx} {sender : Addr} {funds : List Coin}
    {m : Exec} {s s' : State} {msgs : List Msg} (hr : Reach p me NoWrap s) (hg : NoWrap s)
    (hx : execute p ctx sender funds m s = .ok (s', msgs)) (d : Denom) :
    amountOf d funds + amountOf d (bidCoins s) =
      paidOut d msgs + amountOf d (bidCoins s') + (if Keeps m then amountOf d funds else 0) := by
  have h := conservation (Spec.Reach.wf hr) hlim (execute_eff hx) d
  rw [clash_zero (Spec.Reach.nonce hr) hinj hg, escrow_eq, escrow_eq, outflow_eq] at h
  have hk : kept funds d m = if Keeps m then amountOf d funds else 0 := by cases m <;> rfl
  rw [hk] at h
  omega

/-- A buyer's call gives back everything above the price charged: if it trades, what is returned plus the ask
price is what was attached plus what was in escrow for the order; if it does not, all messages go to the caller
and what is returned plus the new price is what was attached plus the old price. -/
theorem C04_refund (hlim : 1 ≤ p.maxLimit) {ctx : Ctx} {sender : Addr} {funds : List Coin}
    {m : Exec} {s s' : State} {msgs : List Msg} (hr : Reach p me G s) (hm : BuyerCall m)
    (hx : execute p ctx sender funds m s = .ok (s', msgs)) :
    (∃ S B, SellBy s sender m S ∧ BuyBy s sender m B ∧ B.who = sender ∧
      ∃ x : Sale ctx.q funds s s' m msgs S B, (∀ y ∈ x.post, ∃ cs, y = .send sender cs) ∧
        ∀ d, paidOut d x.post + amountOf d [S.limit] = amountOf d funds + amountOf d B.paid) ∨
    (∃ B, BuyBy s sender m B ∧ (∀ y ∈ msgs, ∃ cs, y = .send sender cs) ∧
      ∀ d, paidOut d msgs + amountOf d [B.limit] = amountOf d funds + amountOf d B.paid) := by
  have hsc : SellerCall m = false := by cases m <;> first | rfl | exact absurd hm (fun h => h)
  have trade : Traded p ctx.q s sender funds m s' msgs → ∃ S B, SellBy s sender m S ∧ BuyBy s sender m B ∧ B.who = sender ∧
      ∃ x : Sale ctx.q funds s s' m msgs S B, (∀ y ∈ x.post, ∃ cs, y = .send sender cs) ∧
        ∀ d, paidOut d x.post + amountOf d [S.limit] = amountOf d funds + amountOf d B.paid := by
    rintro ⟨S, B, h⟩
    obtain ⟨x⟩ := h.sale
    have hwho : B.who = sender := by
      cases h.buy with
      | acceptBid => exact absurd hm (fun h => h)
      | acceptCBid => exact absurd hm (fun h => h)
      | restBid _ _ _ ha => cases m <;> first | exact absurd hm (fun h => h) | exact absurd ha (fun h => h)
      | restCBid _ _ _ ha => cases m <;> first | exact absurd hm (fun h => h) | exact absurd ha (fun h => h)
      | _ => rfl
    refine ⟨S, B, h.sell, h.buy, hwho, x, fun y hy => ?_, ?_⟩
    · obtain ⟨cs, e⟩ := x.hpost y hy; rw [hwho] at e; exact ⟨cs, e⟩
    · have h1 := x.hback
      have h2 : priceOf m S B = S.limit := by unfold priceOf; rw [hsc]; rfl
      rw [hsc, h2] at h1
      exact h1
  have rest : ∀ (B : Buy) (left : List Coin), BuyBy s sender m B → msgs = refund sender left [] →
      (∀ d, amountOf d left + amountOf d [B.limit] = amountOf d funds + amountOf d B.paid) →
      (∃ B, BuyBy s sender m B ∧ (∀ y ∈ msgs, ∃ cs, y = .send sender cs) ∧
      ∀ d, paidOut d msgs + amountOf d [B.limit] = amountOf d funds + amountOf d B.paid) := by
    intro B left hB hmsgs hd
    obtain ⟨post, e, h1, h2⟩ := refund_eq sender left []
    rw [List.nil_append] at e
    subst hmsgs
    rw [e]
    exact ⟨B, hB, h1, fun d => by rw [h2 d]; exact hd d⟩
  have new : ∀ {fn left : List Coin} {c : Coin}, nbNormalize funds = .ok fn → nbSub fn c = .ok left →
      ∀ d, amountOf d left + amountOf d [c] = amountOf d funds + amountOf d [] := by
    intro fn left c h1 h2 d
    have := (nbNormalize_ok h1).1 d
    have := (nbSub_ok h2).1 d
    rw [amountOf_singleton]
    simp only [amountOf]
    omega
  have upd : ∀ {fn fa left : List Coin} {o c : Coin}, nbNormalize funds = .ok fn → nbAdd fn o = .ok fa →
      nbSub fa c = .ok left → ∀ d, amountOf d left + amountOf d [c] = amountOf d funds + amountOf d [o] := by
    intro fn fa left o c h1 h2 h3 d
    have := (nbNormalize_ok h1).1 d
    have := (nbAdd_ok h2).1 d
    have := (nbSub_ok h3).1 d
    rw [amountOf_singleton, amountOf_singleton]
    omega
  have hw := Spec.Reach.wf hr
  have e := execute_eff hx
  rcases eff_trade hw hlim e with hno | ⟨id, a, rfl, _⟩ | ⟨c', t', d, id, a, fee, rfl, _⟩ | h
  · right
    have nonft : ∀ {a : Ask} {mb : MatchingBid} {abb : Bool} (x : SaleParts p ctx a s.config mb abb) (left : List Coin),
        msgs = refund sender left x.msgs → False := by
      intro a mb abb x left h
      obtain ⟨pre, e1, _⟩ := x_split x
      obtain ⟨post, e2, _⟩ := refund_eq sender left x.msgs
      refine hno a.collection a.tokenId mb.recipient ?_
      rw [h, e2, e1]; simp
    cases e with
    | config => exact absurd hm (fun h => h)
    | denom => exact absurd hm (fun h => h)
    | setFee => exact absurd hm (fun h => h)
    | rmFee => exact absurd hm (fun h => h)
    | restAsk => exact absurd hm (fun h => h)
    | sellAsk m coll tok d pay mb hm' => rcases hm' with rfl | rfl <;> exact absurd hm (fun h => h)
    | updAsk => exact absurd hm (fun h => h)
    | updSell => exact absurd hm (fun h => h)
    | rmAsk => exact absurd hm (fun h => h)
    | accAsk id d a fn left hd hn ha hpr hl x => exact (nonft x left rfl).elim
    | restBid coll tok d fn left hv hd htr hpr hn hmm hl hnew =>
      exact rest _ left (.setBid coll tok d) rfl (new hn hl)
    | buyBid m coll tok d fn left a hm' hv hd htr hpr hn ha hl x => exact (nonft x left rfl).elim
    | updBid id d b fn fa left hd hb hcr hpr hn hadd hmm hl =>
      exact rest _ left (.updateBid id d b hb hcr.symm) rfl (upd hn hadd hl)
    | updBuy id d b a fn fa left hd hb hcr hpr hn hadd ha hl x => exact (nonft x left rfl).elim
    | rmBid => exact absurd hm (fun h => h)
    | accBid => exact absurd hm (fun h => h)
    | restCBid coll d fn left hv hd htr hpr hn hmm hl hnew =>
      exact rest _ left (.setCBid coll d) rfl (new hn hl)
    | buyCBid m coll d fn left a hm' hv hd htr hpr hn ha hl x => exact (nonft x left rfl).elim
    | updCBid id d b fn fa left hd hb hcr hpr hn hadd hmm hl =>
      exact rest _ left (.updateCBid id d b hb hcr.symm) rfl (upd hn hadd hl)
    | updCBuy id d b a fn fa left hd hb hcr hpr hn hadd ha hl x => exact (nonft x left rfl).elim
    | rmCBid => exact absurd hm (fun h => h)
    | accCBid => exact absurd hm (fun h => h)
  · exact absurd hm (fun h => h)
  · exact absurd hm (fun h => h)
  · exact Or.inl (trade h)

namespace Sample
/-- carol raises the collection bid from 90 to 95, sending 12 -/
theorem raise_ok : execute P (ctx (some self)) carol [⟨ust, 12⟩] (.updateCollectionBid cid (det 95)) s4 =
    .ok (run (ctx (some self)) carol [⟨ust, 12⟩] (.updateCollectionBid cid (det 95)) s4) := run_eq (by decide +kernel)
example : (run (ctx (some self)) carol [⟨ust, 12⟩] (.updateCollectionBid cid (det 95)) s4).2 =
    [.send carol [⟨ust, 7⟩]] := by decide +kernel
example := C04_account (by decide) hashInj r4 (by decide +kernel) raise_ok ust
example := C04_refund (by decide) r4 (by trivial) raise_ok
end Sample

/-! ### C05 coins attached to AcceptBid -/

/-- FULL STATEMENT of C05. -/
def C05_statement : Prop := ∀ (p : Params) (me : Addr), 1 ≤ p.maxLimit → HashInj p → PrefixFree p → NoSlash p →
  ∀ (ctx : Ctx) (sender : Addr) (funds : List Coin) (m : Exec) (s s' : State) (msgs : List Msg),
  Reach p me NoWrap s → NoWrap s → ctx.self = me → sender ≠ me →
  ((∃ id d, m = .acceptBid id d) ∨ ∃ id t d, m = .acceptCollectionBid id t d) →
  execute p ctx sender funds m s = .ok (s', msgs) →
  ∀ d, amountOf d funds + amountOf d (bidCoins s) ≤ paidOut d msgs + amountOf d (bidCoins s')

namespace Sample
/-- alice accepts bob's bid and attaches 7: they are gone -/
theorem trap_ok : execute P (ctx (some self)) alice [⟨ust, 7⟩] (.acceptBid bid (det 80)) s4 =
    .ok (run (ctx (some self)) alice [⟨ust, 7⟩] (.acceptBid bid (det 80)) s4) := run_eq (by decide +kernel)
end Sample

/-- VIOLATED: the full statement is false. -/
theorem C05_violated : ¬ C05_statement := by
  intro h
  have := h Sample.P Sample.self (by decide) Sample.hashInj Sample.prefixFree Sample.noSlash _ _ _ _ _ _ _ Sample.r4
    (by decide +kernel) rfl (by decide) (Or.inl ⟨_, _, rfl⟩) Sample.trap_ok Sample.ust
  revert this
  decide +kernel

/-- What holds: exactly the attached coins stay behind, so a seller who attaches nothing loses nothing. -/
theorem C05_partial (hlim : 1 ≤ p.maxLimit) (hinj : HashInj p) {ctx : Ctx} {sender : Addr} {funds : List Coin}
    {m : Exec} {s s' : State} {msgs : List Msg} (hr : Reach p me NoWrap s) (hg : NoWrap s)
    (hm : (∃ id d, m = .acceptBid id d) ∨ ∃ id t d, m = .acceptCollectionBid id t d)
    (hx : execute p ctx sender funds m s = .ok (s', msgs)) (d : Denom) :
    amountOf d (bidCoins s) = paidOut d msgs + amountOf d (bidCoins s') := by
  have := C04_account hlim hinj hr hg hx d
  rcases hm with ⟨_, _, rfl⟩ | ⟨_, _, _, rfl⟩ <;> simp only [Keeps, if_true] at this <;> omega

example := C05_partial (by decide) Sample.hashInj Sample.r4 (by decide +kernel) (Or.inl ⟨_, _, rfl⟩) Sample.trap_ok Sample.ust

/-! ### C06 withdrawing bids -/

theorem withdraw_steps (S : Sys State Exec Empty) (hS : S.exec = execute p) {w : World State} {creator : Addr} {price : Coin}
    {m : Exec} {s' : State} (hne : creator ≠ S.self) (hpos : 0 < price.amount)
    (hbal : ∀ d, amountOf d [price] ≤ w.bank S.self d) (q : Queries) (hq : S.queriesOk w q)
    (hex : execute p (S.ctx w q) creator [] m w.st = .ok (s', [.send creator [price]])) :
    S.Steps (w, []) ({ w with bank := moveFunds w.bank S.self creator [price], st := s' }, []) := by
  have h1 := Sys.Step.call (S := S) w [] creator [] m q s' [.send creator [price]] trivial hne
    (fun d => Nat.zero_le _) hq (by rw [hS]; exact hex)
  rw [List.append_nil] at h1
  have hb : moveFunds w.bank creator S.self [] = w.bank := by
    funext x d; simp [moveFunds, amountOf]
  rw [hb] at h1
  refine .tail (.single h1) ?_
  exact Sys.Step.send (S := S) { w with st := s' } creator [price] [] (by simp) (by simpa using hpos) hbal

/-- Between transactions the creator of an open bid can withdraw it: the call is accepted, and with it the refund,
after which the bid is gone, nothing else changed, and the creator has the price back. -/
theorem C06_withdraw_bid (hlim : 1 ≤ p.maxLimit) {w : World State} (h : Run p me honest (w, []))
    {id : Bytes} {b : Bid} (hb : w.st.bids.get? id = some b) (q : Queries) (hq : (sys p me honest).queriesOk w q) :
    ∃ s', execute p ((sys p me honest).ctx w q) b.creator [] (.removeBid id) w.st =
        .ok (s', [.send b.creator [b.details.price]]) ∧
      s' = { w.st with bids := s'.bids } ∧ s'.bids.get? id = none ∧
      (∀ id', id' ≠ id → s'.bids.get? id' = w.st.bids.get? id') ∧
      ∃ w', (sys p me honest).Steps (w, []) (w', []) ∧ w'.st = s' ∧
        ∀ d, w'.bank b.creator d = w.bank b.creator d + amountOf d [b.details.price] := by
  have hr := Spec.Run.reach h
  obtain ⟨hid, _, hpos⟩ := (Spec.Reach.wf hr).bid hb
  have hne := (Spec.Reach.cre hr).2.1 id b hb
  have hex : execute p ((sys p me honest).ctx w q) b.creator [] (.removeBid id) w.st =
      .ok ({ w.st with bids := w.st.bids.erase id }, [.send b.creator [b.details.price]]) := by
    simp [execute, executeRemoveBid, nonpayable, ensure, hb, orErr, hid, bind, Except.bind, transferCoin]
  refine ⟨_, hex, rfl, by simp, ?_, _, withdraw_steps (sys p me honest) rfl hne hpos ?_ q hq hex, rfl, ?_⟩
  · intro id' hn; simp [AMap.get?_erase, Ne.symm hn]
  · intro d
    have h1 := C03_backed hlim h d
    have h2 : amountOf d [b.details.price] ≤ amountOf d (bidCoins w.st) := by
      rw [amountOf_singleton, ← escrow_eq]
      have := AMap.le_sum (fun b : Bid => b.details.price.inDenom d) hb
      unfold escrow; omega
    have e : (sys p me honest).self = me := rfl
    rw [e]; omega
  · intro d
    exact moveFunds_to (Ne.symm hne) d

/-- The same for collection bids. -/
theorem C06_withdraw_cbid (hlim : 1 ≤ p.maxLimit) {w : World State} (h : Run p me honest (w, []))
    {id : Bytes} {b : CBid} (hb : w.st.cbids.get? id = some b) (q : Queries) (hq : (sys p me honest).queriesOk w q) :
    ∃ s', execute p ((sys p me honest).ctx w q) b.creator [] (.removeCollectionBid id) w.st =
        .ok (s', [.send b.creator [b.details.price]]) ∧
      s' = { w.st with cbids := s'.cbids } ∧ s'.cbids.get? id = none ∧
      (∀ id', id' ≠ id → s'.cbids.get? id' = w.st.cbids.get? id') ∧
      ∃ w', (sys p me honest).Steps (w, []) (w', []) ∧ w'.st = s' ∧
        ∀ d, w'.bank b.creator d = w.bank b.creator d + amountOf d [b.details.price] := by
  have hr := Spec.Run.reach h
  obtain ⟨hid, _, hpos⟩ := (Spec.Reach.wf hr).cbid hb
  have hne := (Spec.Reach.cre hr).2.2 id b hb
  have hex : execute p ((sys p me honest).ctx w q) b.creator [] (.removeCollectionBid id) w.st =
      .ok ({ w.st with cbids := w.st.cbids.erase id }, [.send b.creator [b.details.price]]) := by
    simp [execute, executeRemoveCollectionBid, nonpayable, ensure, hb, orErr, hid, bind, Except.bind, transferCoin]
  refine ⟨_, hex, rfl, by simp, ?_, _, withdraw_steps (sys p me honest) rfl hne hpos ?_ q hq hex, rfl, ?_⟩
  · intro id' hn; simp [AMap.get?_erase, Ne.symm hn]
  · intro d
    have h1 := C03_backed hlim h d
    have h2 : amountOf d [b.details.price] ≤ amountOf d (bidCoins w.st) := by
      rw [amountOf_singleton, ← escrow_eq]
      have := AMap.le_sum (fun b : CBid => b.details.price.inDenom d) hb
      unfold escrow; omega
    have e : (sys p me honest).self = me := rfl
    rw [e]; omega
  · intro d
    exact moveFunds_to (Ne.symm hne) d

/-! ### C07 custody -/

/-- Whenever a call can be made - between transactions, or inside a transaction while foreign code is running -
every listed token of a conforming collection belongs to the marketplace. -/
theorem C07_custody_nested (hlim : 1 ≤ p.maxLimit) {w : World State} {stack : List Msg} (h : Run p me honest (w, stack))
    (hc : (sys p me honest).control stack) {id : Bytes} {a : Ask} (ha : w.st.asks.get? id = some a)
    (hh : honest a.collection) : w.owner a.collection a.tokenId = some me := by
  obtain ⟨c, w0, hi, hs⟩ := h
  have h0 : WF p w0.st ∧ (sys p me honest).J held w0.st w0.owner [] := by
    refine ⟨WF.init hi, ?_⟩
    rintro c t _ ⟨id, a, h, _⟩
    rw [(init_empty hi).1, empty_get] at h; cases h
  have hinv := Sys.Steps.inv (P := fun y => WF p y.1.st ∧ (sys p me honest).J held y.1.st y.1.owner y.2) ?_ hs h0
  · have hesc : (sys p me honest).Esc held w.st w.owner := by
      have hJ := hinv.2
      cases stack with
      | nil => exact hJ
      | cons m rest =>
        cases m with
        | nft c' t' to => exact (hJ.2 hc.1).1
        | hook to i => exact hJ.1
        | send => exact absurd hc (fun h => h)
        | fairBurn => exact absurd hc (fun h => h)
        | initRoyalty => exact absurd hc (fun h => h)
    exact hesc a.collection a.tokenId hh ⟨id, a, ha, rfl, rfl⟩
  · rintro x y ⟨hw, hJ⟩ hxy
    constructor
    · refine Sys.state_inv_step (S := sys p me honest) (I := WF p) ?_ ?_ hw hxy
      · intro ctx sender funds m s s' msgs _ _ h3 h4
        exact h3.eff (execute_eff h4)
      · intro ctx m; exact nomatch m
    · refine Sys.custody_step (S := sys p me honest) (held := held) (I := WF p) ?_ ?_ hw hJ hxy
      · intro ctx sender funds m s s' msgs owner h1 h2 h3 h4 h5 h6
        exact custody_exec hlim h1 h2 h3 h4 h5 (execute_eff h6)
      · intro ctx m; exact nomatch m

/-- Between transactions every listed token of a conforming collection belongs to the marketplace. -/
theorem C07_custody (hlim : 1 ≤ p.maxLimit) {w : World State} (h : Run p me honest (w, []))
    {id : Bytes} {a : Ask} (ha : w.st.asks.get? id = some a) (hh : honest a.collection) :
    w.owner a.collection a.tokenId = some me := C07_custody_nested hlim h trivial ha hh

/-! ### C08 withdrawing listings -/

/-- Between transactions the creator of an open ask on a conforming collection can withdraw it: call and transfer
are accepted, afterwards the ask is gone, nothing else changed, and the recipient named by the ask (default: the
creator) owns the token. -/
theorem C08_withdraw_ask (hlim : 1 ≤ p.maxLimit) {w : World State} (h : Run p me honest (w, []))
    {id : Bytes} {a : Ask} (ha : w.st.asks.get? id = some a) (hh : honest a.collection)
    (q : Queries) (hq : (sys p me honest).queriesOk w q) :
    ∃ s', execute p ((sys p me honest).ctx w q) a.creator [] (.removeAsk id) w.st =
        .ok (s', [.nft a.collection a.tokenId (a.details.recipient.getD a.creator)]) ∧
      s' = { w.st with asks := s'.asks } ∧ s'.asks.get? id = none ∧
      (∀ id', id' ≠ id → s'.asks.get? id' = w.st.asks.get? id') ∧
      ∃ w', (sys p me honest).Steps (w, []) (w', []) ∧ w'.st = s' ∧ w'.bank = w.bank ∧
        w'.owner a.collection a.tokenId = some (a.details.recipient.getD a.creator) ∧
        ∀ c t, (c, t) ≠ (a.collection, a.tokenId) → w'.owner c t = w.owner c t := by
  have hr := Spec.Run.reach h
  obtain ⟨hid, _, _⟩ := (Spec.Reach.wf hr).ask ha
  have hne := (Spec.Reach.cre hr).1 id a ha
  have hex : execute p ((sys p me honest).ctx w q) a.creator [] (.removeAsk id) w.st =
      .ok ({ w.st with asks := w.st.asks.erase id }, [.nft a.collection a.tokenId (a.details.recipient.getD a.creator)]) := by
    simp [execute, executeRemoveAsk, nonpayable, ensure, ha, orErr, hid, bind, Except.bind, transferNft, Ask.assetRecipient, addressOr]
  refine ⟨_, hex, rfl, by simp, ?_,
    { w with owner := setOwner w.owner a.collection a.tokenId (a.details.recipient.getD a.creator),
             st := { w.st with asks := w.st.asks.erase id } }, ?_, rfl, rfl, ?_, ?_⟩
  · intro id' hn; simp [AMap.get?_erase, Ne.symm hn]
  · have h1 := Sys.Step.call (S := sys p me honest) w [] a.creator [] (.removeAsk id) q
      { w.st with asks := w.st.asks.erase id } _ trivial hne (fun d => Nat.zero_le _) hq hex
    rw [List.append_nil] at h1
    have hb : moveFunds w.bank a.creator (sys p me honest).self [] = w.bank := by
      funext x d; simp [moveFunds, amountOf]
    rw [hb] at h1
    refine .tail (.single h1) ?_
    exact Sys.Step.nft (S := sys p me honest) { w with st := { w.st with asks := w.st.asks.erase id } }
      a.collection a.tokenId _ [] me hh (C07_custody hlim h ha hh) (Or.inl rfl)
  · simp [setOwner]
  · intro c t hct
    have : ¬ (c = a.collection ∧ t = a.tokenId) := fun e => hct (by rw [e.1, e.2])
    simp [setOwner, this]

namespace Sample
def at_ (w : World State) (o : Option Addr) (sender : Addr) (funds : List Coin) (m : Exec) : World State :=
  { w with bank := moveFunds w.bank sender self funds, st := (run (M.ctx w (q o none)) sender funds m w.st).1 }

theorem call2 {w : World State} (hr : Run P self hon (w, []))
    {sender : Addr} {funds : List Coin} {m : Exec} {o : Option Addr} {msgs : List Msg} (hne : sender ≠ self)
    (hfunds : ∀ d, amountOf d funds ≤ w.bank sender d) (hq : ∀ c t, (q o none).ownerOf c t = w.owner c t)
    (hs : ok (M.ctx w (q o none)) sender funds m w.st = true)
    (hm : (run (M.ctx w (q o none)) sender funds m w.st).2 = msgs) :
    Run P self hon (at_ w o sender funds m, msgs) := by
  have := call1 hr rfl hne hfunds hq hs
  rw [hm] at this
  exact this

theorem ust_only {n : Nat} {bank : Denom → Nat} (h : n ≤ bank ust) : ∀ d, amountOf d [⟨ust, n⟩] ≤ bank d := by
  intro d
  simp only [amountOf, Coin.inDenom]
  by_cases e : d = ust
  · subst e; simpa using h
  · rw [if_neg (fun h => e h.symm)]; exact Nat.zero_le _

/-- the admin sets a listing fee of 5 -/
def w1 : World State := at_ w0 (some alice) admin [] (.setListingFee ⟨ust, 5⟩)
theorem runw1 : Run P self hon (w1, []) :=
  call2 run0 (by decide) (fun _ => Nat.zero_le _) (fun _ _ => rfl) (by decide +kernel) (by decide +kernel)
/-- alice lists the token for 100; the fee is forwarded and the token transferred -/
def w2 : World State := at_ w1 (some alice) alice [⟨ust, 5⟩] (.setAsk coll tok (det 100))
theorem runw2 : Run P self hon (w2, [.send feeMgr [⟨ust, 5⟩], .nft coll tok self]) :=
  call2 runw1 (by decide) (ust_only (by decide +kernel)) (fun _ _ => rfl) (by decide +kernel) (by decide +kernel)
def w3 : World State := { w2 with bank := moveFunds w2.bank self feeMgr [⟨ust, 5⟩] }
theorem runw3 : Run P self hon (w3, [.nft coll tok self]) :=
  Spec.Run.step runw2 (Sys.Step.send (S := M) w2 feeMgr [⟨ust, 5⟩] _ (by simp) (by simp) (ust_only (by decide +kernel)))
def w4 : World State := { w3 with owner := setOwner w3.owner coll tok self }
theorem runw4 : Run P self hon (w4, []) :=
  Spec.Run.step runw3 (Sys.Step.nft (S := M) w3 coll tok self [] alice trivial (by decide +kernel) (Or.inr rfl))
/-- bob bids 80 -/
def w5 : World State := at_ w4 (some self) bob [⟨ust, 80⟩] (.setBid coll tok (det 80))
theorem runw5 : Run P self hon (w5, []) := by
  refine call2 runw4 (by decide) (ust_only (by decide +kernel)) ?_ (by decide +kernel) (by decide +kernel)
  intro c t
  simp only [q, w4, w3, w2, w1, at_, w0, setOwner]
  split <;> simp [*]
/-- carol bids 85 on the collection -/
def w6 : World State := at_ w5 (some self) carol [⟨ust, 85⟩] (.setCollectionBid coll (det 85))
theorem w5_owner (c t : Bytes) : (q (some self) none).ownerOf c t = w5.owner c t := by
  simp only [q, w5, w4, w3, w2, w1, at_, w0, setOwner]
  split <;> simp [*]
theorem runw6 : Run P self hon (w6, []) :=
  call2 runw5 (by decide) (ust_only (by decide +kernel)) w5_owner (by decide +kernel) (by decide +kernel)

example := C06_withdraw_bid (by decide) runw6 (id := bid) (b := Bid.new P bob coll tok (det 80) 7 1) (by decide +kernel)
  (q (some self) none) (fun c t _ => w5_owner c t)
example := C06_withdraw_cbid (by decide) runw6 (id := cid) (b := CBid.new P carol coll (det 85) 7 2) (by decide +kernel)
  (q (some self) none) (fun c t _ => w5_owner c t)
example := C07_custody (by decide) runw6 (id := aid) (a := Ask.new P alice coll tok (det 100)) (by decide +kernel) trivial
example := C08_withdraw_ask (by decide) runw6 (id := aid) (a := Ask.new P alice coll tok (det 100)) (by decide +kernel) trivial
  (q (some self) none) (fun c t _ => w5_owner c t)
end Sample

/-! ### C18 positive amounts -/

/-- Every open order has a positive price. -/
theorem C18_prices {s : State} (hr : Reach p me G s) :
    (∀ id a, s.asks.get? id = some a → 0 < a.details.price.amount) ∧
    (∀ id b, s.bids.get? id = some b → 0 < b.details.price.amount) ∧
    (∀ id b, s.cbids.get? id = some b → 0 < b.details.price.amount) := by
  have hw := Spec.Reach.wf hr
  exact ⟨fun _ _ h => (hw.ask h).2.2.2, fun _ _ h => (hw.bid h).2.2, fun _ _ h => (hw.cbid h).2.2⟩

theorem refund_pos {sender : Addr} {left : List Coin} {ms : List Msg} (hl : ∀ c ∈ left, 0 < c.amount)
    (h : ∀ to cs, Msg.send to cs ∈ ms → cs ≠ [] ∧ ∀ c ∈ cs, 0 < c.amount) :
    ∀ to cs, Msg.send to cs ∈ refund sender left ms → cs ≠ [] ∧ ∀ c ∈ cs, 0 < c.amount := by
  intro to cs hm
  unfold refund at hm
  split at hm
  · exact h to cs hm
  case isFalse hne =>
    rw [List.mem_append, List.mem_singleton] at hm
    rcases hm with hm | hm
    · exact h to cs hm
    · cases hm
      exact ⟨nbIsEmpty_false_ne (by simpa using hne), hl⟩

theorem sale_pos {ctx : Ctx} {a : Ask} {c : Config} {mb : MatchingBid} {abb : Bool} (x : SaleParts p ctx a c mb abb)
    (hp : 0 < (saleTerms a mb abb).1.amount) :
    ∀ to cs, Msg.send to cs ∈ x.msgs → cs ≠ [] ∧ ∀ c ∈ cs, 0 < c.amount := by
  intro to cs hm
  unfold SaleParts.msgs at hm
  rw [List.mem_append, List.mem_append, List.mem_singleton] at hm
  rcases hm with (hm | hm) | hm
  · rcases fetchOrSet_msgs x.hroy with h | h
    · rw [h] at hm; cases hm
    · rw [h, List.mem_singleton] at hm; cases hm
  · simp only [payoutMsgs, List.mem_map] at hm
    obtain ⟨y, hy, e⟩ := hm
    have := buildPayments_pos x.hpay hp y hy
    cases e
    exact ⟨by simp, by simpa using this⟩
  · cases hm

/-- Every bank transfer the contract emits has coins, all positive. -/
theorem C18_sends (hlim : 1 ≤ p.maxLimit) {ctx : Ctx} {sender : Addr} {funds : List Coin} {m : Exec} {s s' : State} {msgs : List Msg}
    (hr : Reach p me G s) (hx : execute p ctx sender funds m s = .ok (s', msgs)) :
    ∀ to cs, Msg.send to cs ∈ msgs → cs ≠ [] ∧ ∀ c ∈ cs, 0 < c.amount := by
  have hw := Spec.Reach.wf hr
  have none : ∀ to cs, Msg.send to cs ∈ ([] : List Msg) → cs ≠ [] ∧ ∀ c ∈ cs, 0 < c.amount := by simp
  have one : ∀ {to' : Addr} {pay : Coin} {ms : List Msg}, 0 < pay.amount →
      (∀ to cs, Msg.send to cs ∈ ms → cs ≠ [] ∧ ∀ c ∈ cs, 0 < c.amount) →
      ∀ to cs, Msg.send to cs ∈ .send to' [pay] :: ms → cs ≠ [] ∧ ∀ c ∈ cs, 0 < c.amount := by
    intro to' pay ms hp h to cs hm
    rw [List.mem_cons] at hm
    rcases hm with e | hm
    · cases e; exact ⟨by simp, by simpa using hp⟩
    · exact h to cs hm
  have new : ∀ {fn left : List Coin} {c : Coin}, nbNormalize funds = .ok fn → nbSub fn c = .ok left →
      ∀ c ∈ left, 0 < c.amount := fun h1 h2 => (nbSub_ok h2).2 (nbNormalize_ok h1).2
  have upd : ∀ {fn fa left : List Coin} {o c : Coin}, nbNormalize funds = .ok fn → nbAdd fn o = .ok fa →
      0 < o.amount → nbSub fa c = .ok left → ∀ c ∈ left, 0 < c.amount :=
    fun h1 h2 h3 h4 => (nbSub_ok h4).2 ((nbAdd_ok h2).2 (nbNormalize_ok h1).2 h3)
  have mbp : ∀ {a : Ask} {mb : MatchingBid}, a.matchWithBid p s = some mb → 0 < (saleTerms a mb false).1.amount := by
    intro a mb h
    cases mb with
    | bid b => obtain ⟨⟨_, k⟩, _⟩ := matchWithBid_bid hlim h; exact (hw.bid k).2.2
    | cbid b => obtain ⟨⟨_, k⟩, _⟩ := matchWithBid_cbid hlim h; exact (hw.cbid k).2.2
  cases execute_eff hx with
  | config => exact none
  | denom => exact none
  | setFee => exact none
  | rmFee => exact none
  | restAsk coll tok d pay hv hd hown htr hpr hf hpos => exact one hpos (by simp)
  | sellAsk m coll tok d pay mb hm hv hd hown htr hpr hf hpos hfee hmb x => exact one hpos (sale_pos x (mbp hmb))
  | updAsk => exact none
  | updSell id d a mb hf hd ha hcr hpr hmb x => exact sale_pos x (mbp hmb)
  | rmAsk => simp
  | accAsk id d a fn left hd hn ha hpr hl x => exact refund_pos (new hn hl) (sale_pos x (hw.ask ha).2.2.2)
  | restBid coll tok d fn left hv hd htr hpr hn hmm hl => exact refund_pos (new hn hl) none
  | buyBid m coll tok d fn left a hm' hv hd htr hpr hn ha hl x =>
    exact refund_pos (new hn hl) (sale_pos x (hw.ask (bidMatch_some ha).1).2.2.2)
  | updBid id d b fn fa left hd hb hcr hpr hn hadd hmm hl => exact refund_pos (upd hn hadd (hw.bid hb).2.2 hl) none
  | updBuy id d b a fn fa left hd hb hcr hpr hn hadd ha hl x =>
    exact refund_pos (upd hn hadd (hw.bid hb).2.2 hl) (sale_pos x (hw.ask (bidMatch_some ha).1).2.2.2)
  | rmBid id b hf hb => exact one (hw.bid hb).2.2 none
  | accBid id d b a hd hb hpr ha x => exact sale_pos x (hw.bid hb).2.2
  | restCBid coll d fn left hv hd htr hpr hn hmm hl => exact refund_pos (new hn hl) none
  | buyCBid m coll d fn left a hm' hv hd htr hpr hn ha hl x =>
    obtain ⟨⟨_, k⟩, _⟩ := cbidMatch_some hlim ha
    exact refund_pos (new hn hl) (sale_pos x (hw.ask k).2.2.2)
  | updCBid id d b fn fa left hd hb hcr hpr hn hadd hmm hl => exact refund_pos (upd hn hadd (hw.cbid hb).2.2 hl) none
  | updCBuy id d b a fn fa left hd hb hcr hpr hn hadd ha hl x =>
    obtain ⟨⟨_, k⟩, _⟩ := cbidMatch_some hlim ha
    exact refund_pos (upd hn hadd (hw.cbid hb).2.2 hl) (sale_pos x (hw.ask k).2.2.2)
  | rmCBid id b hf hb => exact one (hw.cbid hb).2.2 none
  | accCBid id tok d b a hd hb hpr ha x => exact sale_pos x (hw.cbid hb).2.2

example := C18_prices Sample.r4
example := C18_sends (by decide) Sample.r4 Sample.raise_ok

end
end Verif.V2

/-
Marketplace v2: calls that must go through (C77, C78, C79, C80).
-/
import Verif.V2.PropsBook
import Verif.V2.PropsSale
import Verif.V2.PropsFunds
import Verif.Base.Drain

namespace Verif.V2
open Verif Spec

section
variable {p : Params} {me : Addr} {G : State → Prop} {honest : Addr → Prop}

/-! ### C77 an accepted call completes -/

/-- The messages of a call are bank sends, NFT transfers and registrations of a royalty. -/
theorem msg_kinds {ctx : Ctx} {sender : Addr} {funds : List Coin} {m : Exec} {s s' : State} {msgs : List Msg}
    (e : Eff p ctx sender funds s m s' msgs) :
    ∀ y ∈ msgs, (∃ to cs, y = .send to cs) ∨ (∃ c t to, y = .nft c t to) ∨ ∃ r c, y = .initRoyalty r c := by
  have sale : ∀ {a : Ask} {mb : MatchingBid} {abb : Bool} (x : SaleParts p ctx a s.config mb abb), ∀ y ∈ x.msgs,
      (∃ to cs, y = .send to cs) ∨ (∃ c t to, y = .nft c t to) ∨ ∃ r c, y = .initRoyalty r c := by
    intro a mb abb x y hy
    unfold SaleParts.msgs at hy
    simp only [List.mem_append, List.mem_singleton] at hy
    rcases hy with (hy | hy) | hy
    · rcases fetchOrSet_msgs x.hroy with h | h
      · rw [h] at hy; cases hy
      · rw [h, List.mem_singleton] at hy; exact Or.inr (Or.inr ⟨_, _, hy⟩)
    · obtain ⟨to, c, h⟩ := payoutMsgs_no_nft y hy
      exact Or.inl ⟨to, [c], h⟩
    · exact Or.inr (Or.inl ⟨_, _, _, hy⟩)
  have ref : ∀ {left : List Coin} {ms : List Msg}, (∀ y ∈ ms, (∃ to cs, y = .send to cs) ∨ (∃ c t to, y = .nft c t to) ∨
      ∃ r c, y = .initRoyalty r c) → ∀ y ∈ refund sender left ms, (∃ to cs, y = .send to cs) ∨ (∃ c t to, y = .nft c t to) ∨
      ∃ r c, y = .initRoyalty r c := by
    intro left ms h y hy
    obtain ⟨post, h1, h2, _⟩ := refund_eq sender left ms
    rw [h1, List.mem_append] at hy
    rcases hy with hy | hy
    · exact h y hy
    · obtain ⟨cs, hc⟩ := h2 y hy; exact Or.inl ⟨_, _, hc⟩
  cases e with
  | sellAsk m coll tok d pay mb hm hv hd hown htr hpr hf hpos hfee hmb x =>
    intro y hy
    rcases List.mem_cons.mp hy with hy | hy
    · exact Or.inl ⟨_, _, hy⟩
    · exact sale x y hy
  | updSell id d a mb hf hd ha hcr hpr hmb x => exact sale x
  | accAsk id d a fn left hd hn ha hpr hl x => exact ref (sale x)
  | restBid => exact ref (by simp)
  | buyBid m coll tok d fn left a hm hv hd htr hpr hn ha hl x => exact ref (sale x)
  | updBid => exact ref (by simp)
  | updBuy id d b a fn fa left hd hb hcr hpr hn hadd ha hl x => exact ref (sale x)
  | accBid id d b a hd hb hpr ha x => exact sale x
  | restCBid => exact ref (by simp)
  | buyCBid m coll d fn left a hm hv hd htr hpr hn ha hl x => exact ref (sale x)
  | updCBid => exact ref (by simp)
  | updCBuy id d b a fn fa left hd hb hcr hpr hn hadd ha hl x => exact ref (sale x)
  | accCBid id tok d b a hd hb hpr ha x => exact sale x
  | _ => simp

/-- Once the contract accepts a call, all its messages are executed: no payment fails for lack of funds or because
it is empty. The only condition is that NFTs to be moved are on conforming collections and that the contract holds
them or is approved for them. Afterwards every account other than the contract has what it had, less the attached
funds, plus what was sent to it. -/
theorem C77_completes (hlim : 1 ≤ p.maxLimit) {w : World State} (h : Run p me honest (w, [])) {q : Queries}
    (hq : (sys p me honest).queriesOk w q) {sender : Addr} {funds : List Coin} {m : Exec} {s' : State} {msgs : List Msg}
    (hne : sender ≠ me) (hfunds : ∀ d, amountOf d funds ≤ w.bank sender d)
    (hx : execute p ((sys p me honest).ctx w q) sender funds m w.st = .ok (s', msgs))
    (hnft : ∀ c t to, Msg.nft c t to ∈ msgs → honest c ∧ ∃ o, w.owner c t = some o ∧ (o = me ∨ w.approved c t = true)) :
    ∃ w', (sys p me honest).Steps (w, []) (w', []) ∧ w'.st = s' ∧
      (∀ x d, x ≠ me → w'.bank x d + (if x = sender then amountOf d funds else 0) = w.bank x d + gets x d msgs) ∧
      (∀ c t to, Msg.nft c t to ∈ msgs → w'.owner c t = some to) ∧
      (∀ c t, (∀ to, Msg.nft c t to ∉ msgs) → w'.owner c t = w.owner c t) := by
  have hr := Spec.Run.reach h
  have h1 := Sys.Step.call (S := sys p me honest) w [] sender funds m q s' msgs trivial hne hfunds hq hx
  have hs := Spec.Run.solvent hlim (Spec.Run.step h h1)
  rw [List.append_nil] at h1 hs
  have key := Sys.drain (S := sys p me honest) msgs []
    { w with bank := moveFunds w.bank sender (sys p me honest).self funds, st := s' } ?_ ?_ ?_
  · obtain ⟨w', hst, e1, -, -, -, b1, -, o1, o2⟩ := key
    rw [List.append_nil] at hst
    refine ⟨w', (Sys.Steps.single h1).trans hst, e1, ?_, o1, o2⟩
    intro x d hxm
    rw [b1 x d hxm]
    show moveFunds w.bank sender me funds x d + _ + _ = _
    by_cases e : x = sender
    · subst e
      rw [moveFunds_from hxm, if_pos rfl]
      have := hfunds d
      omega
    · rw [moveFunds_other e hxm, if_neg e]; omega
  · intro y hy
    rcases msg_kinds (execute_eff hx) y hy with ⟨to, cs, rfl⟩ | ⟨c, t, to, rfl⟩ | ⟨r, c, rfl⟩
    · exact C18_sends hlim hr hx to cs hy
    · exact hnft c t to hy
    · trivial
  · have := C23_at_most_one hr hlim hx
    apply tokens_nodup_of_count
    rw [List.countP_eq_length_filter]
    exact this
  · intro d
    exact Nat.le_trans (Nat.le_add_left _ _) (hs d)

namespace Sample
def buy6 : State × List Msg := run (M.ctx w6 (q (some self) none)) bob [⟨ust, 120⟩] (.acceptAsk aid (det 110)) w6.st
theorem buy6_ok : execute P (M.ctx w6 (q (some self) none)) bob [⟨ust, 120⟩] (.acceptAsk aid (det 110)) w6.st =
    .ok (buy6.1, buy6.2) := run_eq (by decide +kernel)
theorem buy6_msgs : buy6.2 =
    [.initRoyalty registry coll, .send feeMgr [⟨ust, 2⟩], .send artist [⟨ust, 5⟩], .send alice [⟨ust, 93⟩],
     .nft coll tok bob, .send bob [⟨ust, 20⟩]] := by decide +kernel
example := C77_completes (by decide) runw6 (fun c t _ => w5_owner c t) (by decide) (ust_only (by decide +kernel)) buy6_ok
  (by
    intro c t to h
    rw [buy6_msgs] at h
    simp only [List.mem_cons, reduceCtorEq, Msg.nft.injEq, List.not_mem_nil, or_false, false_or] at h
    obtain ⟨rfl, rfl, rfl⟩ := h
    exact ⟨trivial, self, by decide +kernel, Or.inl rfl⟩)
end Sample

/-! ### When a sale can be settled -/

/-- The address strings in the details are valid. -/
def Spec.ValidDetails (p : Params) (d : Details) : Prop :=
  (∀ a, d.recipient = some a → p.valid a = true) ∧ ∀ a, d.finder = some a → p.valid a = true

/-- The registry answers; if it has no entry, the collection's royalty recipient (if any) is a valid address; and
the price covers the rounded fees. `pays` is the resulting split. -/
structure Spec.Settles (p : Params) (q : Queries) (c : Config) (coll : Addr) (price : Coin) (payTo : Addr)
    (maker taker : Option Addr) (pays : List (Addr × Nat)) : Prop where
  amount : price.amount < 2^128
  registry : q.registry c.royaltyRegistry coll ≠ none
  recipient : ∀ i r, q.registry c.royaltyRegistry coll = some (none, none) → q.collInfo coll = some i →
    i.royalty = some r → p.valid r.recipient = true
  pays : split price.amount payTo (feeShares c maker taker ++ royaltyShare q c coll) = some pays

theorem fetch_succeeds {ctx : Ctx} {c : Config} {coll : Addr} (h1 : ctx.q.registry c.royaltyRegistry coll ≠ none)
    (h2 : ∀ i r, ctx.q.registry c.royaltyRegistry coll = some (none, none) → ctx.q.collInfo coll = some i →
      i.royalty = some r → p.valid r.recipient = true) :
    ∃ r, fetchOrSetRoyalties ctx p.valid c.royaltyRegistry coll = .ok r := by
  unfold fetchOrSetRoyalties fetchRoyaltyEntry
  cases hq : ctx.q.registry c.royaltyRegistry coll with
  | none => exact absurd hq h1
  | some e =>
    obtain ⟨a, b⟩ := e
    cases a with
    | some r => exact ⟨_, rfl⟩
    | none =>
      cases b with
      | some r => exact ⟨_, rfl⟩
      | none =>
        simp only [ok_bind]
        cases hi : ctx.q.collInfo coll with
        | none => exact ⟨_, rfl⟩
        | some i =>
          simp only
          cases hr : i.royalty with
          | none => exact ⟨_, rfl⟩
          | some r => simp only [h2 i r hq hi hr, if_true]; exact ⟨_, rfl⟩

theorem sale_succeeds {ctx : Ctx} {s : State} (hw : WF p s) {a : Ask} {mb : MatchingBid} {abb : Bool} {pays : List (Addr × Nat)}
    (h : Settles p ctx.q s.config a.collection (saleTerms a mb abb).1 a.assetRecipient (saleTerms a mb abb).2.1
      (saleTerms a mb abb).2.2 pays) : Nonempty (SaleParts p ctx a s.config mb abb) := by
  obtain ⟨roy, hroy⟩ := fetch_succeeds (p := p) (ctx := ctx) h.registry h.recipient
  obtain ⟨pf, fees, hpf, hfees⟩ := C02_never_aborts s.config (configValidate_ok.mpr hw.cfg) (saleTerms a mb abb).2.1
    (saleTerms a mb abb).2.2 roy.1
  have hsp : split (saleTerms a mb abb).1.amount a.assetRecipient (fees.map (fun f => (f.recipient, f.share))) = some pays := by
    rw [← h.pays]
    apply split_congr
    rw [saleFees_spec hw.cfg.1 hw.cfg.2 hpf hfees]
    unfold royaltyShare
    rw [← fetchOrSet_royalty hroy]
    cases roy.1 <;> rfl
  cases hb : buildPayments (saleTerms a mb abb).1 a.assetRecipient fees with
  | ok ps => exact ⟨⟨pf, roy, fees, ps, hpf, hroy, hfees, hb⟩⟩
  | error e =>
    have := (C01_processor_rejects (by have := h.amount; unfold U128MAX; omega)).mp ⟨e, hb⟩
    rw [hsp] at this; cases this

theorem finalize_succeeds {ctx : Ctx} {s t : State} (hw : WF p s) (hc : t.config = s.config) {a : Ask} {mb : MatchingBid} {abb : Bool} {pays : List (Addr × Nat)}
    (h : Settles p ctx.q s.config a.collection (saleTerms a mb abb).1 a.assetRecipient (saleTerms a mb abb).2.1
      (saleTerms a mb abb).2.2 pays) (resp : List Msg) : ∃ r, finalizeSale p ctx t a t.config mb abb resp = .ok r := by
  obtain ⟨x⟩ := sale_succeeds hw h
  refine ⟨(removeMatching { t with asks := t.asks.erase a.id } mb,
    resp ++ x.roy.2 ++ payoutMsgs x.payments ++ [transferNft a.collection a.tokenId mb.recipient]), ?_⟩
  unfold finalizeSale
  simp only [bind_ok]
  rw [hc]
  exact ⟨x.pf, x.hpf, x.roy, x.hroy, x.fees, x.hfees, x.payments, x.hpay, rfl⟩

theorem normalize_one {den : Denom} {n : Nat} (h : 0 < n) : nbNormalize [⟨den, n⟩] = .ok [⟨den, n⟩] := by
  have : n ≠ 0 := by omega
  simp [nbNormalize, List.filter, this, sortBy, insertBy, mergeDups, bind, Except.bind]

theorem sub_one {den : Denom} {n k : Nat} (h : k ≤ n) : ∃ left, nbSub [⟨den, n⟩] ⟨den, k⟩ = .ok left := by
  refine ⟨if n - k = 0 then [] else [⟨den, n - k⟩], ?_⟩
  unfold nbSub
  rw [if_pos rfl, subChk_le h]; rfl

/-- What account `x` receives of denom `dn` from payments in denom `den`. -/
def Spec.received (x : Addr) (dn den : Denom) (pays : List (Addr × Nat)) : Nat :=
  if dn = den then ((pays.filter (fun y => decide (y.1 = x))).map Prod.snd).sum else 0

theorem gets_pays (x : Addr) (dn den : Denom) : ∀ pays : List (Addr × Nat),
    gets x dn (pays.map (fun y => Msg.send y.1 [⟨den, y.2⟩])) = received x dn den pays
  | [] => by simp [gets, received]
  | y :: ys => by
    rw [List.map_cons]
    simp only [gets, gets_pays x dn den ys, amountOf_singleton, Coin.inDenom, received]
    by_cases e : den = dn
    · subst e
      by_cases e' : y.1 = x
      · simp [e']
      · simp [e']
    · simp [e, Ne.symm e]

theorem gets_sends (x who : Addr) (dn : Denom) : ∀ {post : List Msg}, (∀ y ∈ post, ∃ cs, y = .send who cs) →
    gets x dn post = if x = who then paidOut dn post else 0
  | [], _ => by simp [gets, paidOut]
  | y :: ys, h => by
    obtain ⟨cs, rfl⟩ := h y (by simp)
    have ih := gets_sends x who dn (post := ys) (fun z hz => h z (List.mem_cons_of_mem _ hz))
    simp only [gets, paidOut, ih]
    by_cases e : x = who
    · simp [e]
    · simp [e, Ne.symm e]

theorem gets_royalty (x : Addr) (dn : Denom) (r c : Addr) : ∀ {pre : List Msg}, (∀ y ∈ pre, y = .initRoyalty r c) →
    gets x dn pre = 0
  | [], _ => rfl
  | y :: ys, h => by
    obtain rfl := h y (by simp)
    simp only [gets, gets_royalty x dn r c (pre := ys) (fun z hz => h z (List.mem_cons_of_mem _ hz))]

/-- What an account other than the contract gets from the messages of a sale: its part of the split and, for the
buyer, the refund. -/
theorem sale_gets {q : Queries} {funds : List Coin} {s s' : State} {m : Exec} {msgs : List Msg} {S : Sell} {B : Buy}
    (x : Sale q funds s s' m msgs S B) (hl : Lists m = false) (y : Addr) (dn : Denom) :
    gets y dn msgs = received y dn (priceOf m S B).denom x.pays + if y = B.who then paidOut dn x.post else 0 := by
  refine (congrArg (gets y dn) x.hmsgs).trans ?_
  rw [gets_append, gets_append, gets_pays, gets_royalty y dn s.config.royaltyRegistry S.coll (pre := x.pre), Nat.zero_add]
  · show _ + gets y dn x.post = _
    rw [gets_sends y B.who dn x.hpost]
  · intro z hz
    rcases x.hpre z hz with h | h
    · rw [hl] at h; cases h.1
    · exact h

theorem sale_nfts {q : Queries} {funds : List Coin} {s s' : State} {m : Exec} {msgs : List Msg} {S : Sell} {B : Buy}
    (x : Sale q funds s s' m msgs S B) (c t to : Bytes) : Msg.nft c t to ∈ msgs ↔ (c = S.coll ∧ t = S.tok ∧ to = B.nftTo) := by
  rw [x.hmsgs]
  simp only [List.mem_append, List.mem_cons, List.mem_map, reduceCtorEq, and_false, exists_const, Msg.nft.injEq]
  constructor
  · rintro ((h | h) | h | h)
    · rcases x.hpre _ h with ⟨_, h⟩ | h <;> cases h
    · cases h
    · exact h
    · obtain ⟨cs, h⟩ := x.hpost _ h; cases h
  · intro h; exact Or.inr (Or.inl h)

/-- An accepted trade completes. -/
theorem sale_completes (hlim : 1 ≤ p.maxLimit) {w : World State} (h : Run p me honest (w, [])) {q : Queries}
    (hq : (sys p me honest).queriesOk w q) {sender : Addr} {funds : List Coin} {m : Exec} {s' : State} {msgs : List Msg}
    (hne : sender ≠ me) (hfunds : ∀ d, amountOf d funds ≤ w.bank sender d)
    (hx : execute p ((sys p me honest).ctx w q) sender funds m w.st = .ok (s', msgs)) {S : Sell} {B : Buy}
    (x : Sale q funds w.st s' m msgs S B) (hl : Lists m = false) (hh : honest S.coll) {o : Addr}
    (ho : w.owner S.coll S.tok = some o) (hauth : o = me ∨ w.approved S.coll S.tok = true) :
    ∃ w', (sys p me honest).Steps (w, []) (w', []) ∧ w'.st = s' ∧ w'.owner S.coll S.tok = some B.nftTo ∧
      (∀ c t, (c, t) ≠ (S.coll, S.tok) → w'.owner c t = w.owner c t) ∧
      (∀ y dn, y ≠ me → w'.bank y dn + (if y = sender then amountOf dn funds else 0) =
        w.bank y dn + received y dn (priceOf m S B).denom x.pays + if y = B.who then paidOut dn x.post else 0) := by
  have hnf := sale_nfts x
  have key := C77_completes hlim h hq hne hfunds hx ?_
  · obtain ⟨w', h1, h2, h3, h4, h5⟩ := key
    refine ⟨w', h1, h2, h4 _ _ _ ((hnf _ _ _).mpr ⟨rfl, rfl, rfl⟩), ?_, ?_⟩
    · intro c t hct
      apply h5
      intro to hto
      obtain ⟨rfl, rfl, -⟩ := (hnf _ _ _).mp hto
      exact hct rfl
    · intro y dn hy
      rw [h3 y dn hy, sale_gets x hl, Nat.add_assoc]
  · intro c t to hto
    obtain ⟨rfl, rfl, -⟩ := (hnf _ _ _).mp hto
    exact ⟨hh, o, ho, hauth⟩

theorem amountOf_one {den : Denom} {n : Nat} {bank : Denom → Nat} (h : n ≤ bank den) : ∀ d, amountOf d [⟨den, n⟩] ≤ bank d := by
  intro d
  rw [amountOf_singleton]
  unfold Coin.inDenom
  simp only
  split
  · rename_i e; subst e; exact h
  · exact Nat.zero_le _

/-! ### C78 buying a listed token -/

/-- Whoever can pay the price of an open listing on a conforming collection can buy it: AcceptAsk at or above the
price, with at least the price attached, is accepted and completes, provided the sale can be settled. The buyer's
recipient then owns the token, the listing is gone, the price has been paid out according to the split, and the
buyer has paid exactly the price. -/
theorem C78_buy (hlim : 1 ≤ p.maxLimit) {w : World State} (h : Run p me honest (w, [])) {q : Queries}
    (hq : (sys p me honest).queriesOk w q) {id : Bytes} {a : Ask} (ha : w.st.asks.get? id = some a)
    (hh : honest a.collection) {buyer : Addr} (hne : buyer ≠ me) {d : Details} (hd : ValidDetails p d)
    (hden : d.price.denom = a.details.price.denom) (hamt : a.details.price.amount ≤ d.price.amount) {n : Nat}
    (hn : a.details.price.amount ≤ n) (hbal : n ≤ w.bank buyer a.details.price.denom) {pays : List (Addr × Nat)}
    (hs : Settles p q w.st.config a.collection a.details.price (a.details.recipient.getD a.creator) a.details.finder
      d.finder pays) :
    ∃ w' s' msgs,
      execute p ((sys p me honest).ctx w q) buyer [⟨a.details.price.denom, n⟩] (.acceptAsk id d) w.st = .ok (s', msgs) ∧
      (sys p me honest).Steps (w, []) (w', []) ∧ w'.st = s' ∧ s'.asks.get? id = none ∧
      w'.owner a.collection a.tokenId = some (d.recipient.getD buyer) ∧
      (∀ c t, (c, t) ≠ (a.collection, a.tokenId) → w'.owner c t = w.owner c t) ∧
      ∀ x dn, x ≠ me → w'.bank x dn + (if x = buyer then amountOf dn [a.details.price] else 0) =
        w.bank x dn + received x dn a.details.price.denom pays := by
  have hr := Spec.Run.reach h
  have hw := hr.wf
  have hpos := (hw.ask ha).2.2.2
  obtain ⟨left, hl⟩ := sub_one (den := a.details.price.denom) hn
  have hs' : Settles p ((sys p me honest).ctx w q).q w.st.config a.collection
      (saleTerms a (.bid (Bid.new p buyer a.collection a.tokenId d ((sys p me honest).ctx w q).height (nextNonce w.st))) true).1
      a.assetRecipient a.details.finder d.finder pays := hs
  obtain ⟨r, hfin⟩ := finalize_succeeds (t := { w.st with nonce := nextNonce w.st }) hw rfl hs' []
  have hx : ∃ z, execute p ((sys p me honest).ctx w q) buyer [⟨a.details.price.denom, n⟩] (.acceptAsk id d) w.st = .ok z := by
    refine ⟨(r.1, refund buyer left r.2), ?_⟩
    simp only [execute, executeAcceptAsk, bind_ok, strToAddr_ok, orErr_ok, ensure_ok, takePrice_ok]
    refine ⟨d, ⟨hd, rfl⟩, _, normalize_one (by omega), a, ha, (), ?_, left, hl, r, hfin, rfl⟩
    rw [hasCoins_single]; exact ⟨hden, hamt⟩
  obtain ⟨⟨s', msgs⟩, hx⟩ := hx
  have htr : Trades (.acceptAsk id d) s' me msgs := by
    cases execute_eff hx with
    | accAsk _ _ a' fn left' hd' hn' ha' hpr' hl' x =>
      refine ⟨a'.collection, a'.tokenId, d.recipient.getD buyer, ?_, (by intro id h; cases h),
        (by rintro ⟨-, _, _, _, h, -⟩; cases h)⟩
      · obtain ⟨post, h1, -, -⟩ := refund_eq buyer left' x.msgs
        rw [h1]
        apply List.mem_append_left
        simp [SaleParts.msgs, transferNft, MatchingBid.recipient, Bid.assetRecipient, addressOr, Bid.new]
    | sellAsk _ _ _ _ _ _ hm => rcases hm with h | h <;> cases h
    | buyBid _ _ _ _ _ _ _ hm => rcases hm with h | h <;> cases h
    | buyCBid _ _ _ _ _ _ hm => rcases hm with h | h <;> cases h
  obtain ⟨S, B, hsale⟩ := trade_main hr hlim rfl hx htr
  obtain ⟨x⟩ := hsale.sale
  have hsell := hsale.sell
  have hbuy := hsale.buy
  cases hbuy with
  | acceptAsk _ _ a2 ha2 =>
    rw [ha] at ha2; cases ha2
    cases hsell with
    | resting _ aid a3 hm ha3 hid =>
      obtain rfl := hid _ _ rfl
      rw [ha] at ha3; cases ha3
      have hpays : x.pays = pays := Option.some.inj (x.hpays.symm.trans hs.pays)
      obtain ⟨w', h1, h2, h3, h4, h5⟩ := sale_completes hlim h hq hne (amountOf_one hbal) hx x rfl hh
        (C07_custody hlim h ha hh) (Or.inl rfl)
      refine ⟨w', s', msgs, hx, h1, h2, x.hask _ rfl, h3, h4, ?_⟩
      intro y dn hy
      have e1 := h5 y dn hy
      have e2 := x.hback dn
      rw [hpays] at e1
      simp only [priceOf, SellerCall, Bool.false_eq_true, if_false, amountOf, Nat.add_zero] at e1 e2 ⊢
      by_cases e : y = buyer
      · simp only [if_pos e] at e1 ⊢; omega
      · simp only [if_neg e] at e1 ⊢; omega
  | restBid _ _ _ hm => cases hm
  | restCBid _ _ _ hm => cases hm

namespace Sample
theorem settles6 : Settles P (q (some self) none) w6.st.config coll ⟨ust, 100⟩ alice none none
    [(feeMgr, 2), (artist, 5), (alice, 93)] := by
  refine ⟨by decide, by decide, ?_, by decide +kernel⟩
  intro i r _ hi hr
  cases hi
  cases hr
  decide
example := C78_buy (by decide) runw6 (fun c t _ => w5_owner c t) (id := aid) (a := Ask.new P alice coll tok (det 100))
  (by decide +kernel) trivial (buyer := bob) (by decide) (d := det 110) ⟨by simp [det], by simp [det]⟩ rfl (by decide)
  (n := 120) (by decide) (by decide +kernel) settles6
end Sample

/-! ### C79 selling into an open bid -/

/-- The seller's side when accepting a bid for this token: their own listing of the token if there is one
(payment and finder as in the listing), else the token itself, held by the seller and approved for the contract
(payment and finder as in the call). -/
inductive Spec.HasToSell (w : World State) (seller coll : Addr) (tok : Bytes) (d : Details) : Addr → Option Addr → Prop where
  | listed (id : Bytes) (a : Ask) (ha : w.st.asks.get? id = some a) (hc : a.collection = coll) (ht : a.tokenId = tok)
      (hs : a.creator = seller) : HasToSell w seller coll tok d (a.details.recipient.getD seller) a.details.finder
  | held (ho : w.owner coll tok = some seller) (happ : w.approved coll tok = true) :
      HasToSell w seller coll tok d (d.recipient.getD seller) d.finder

theorem acceptor_succeeds (hlim : 1 ≤ p.maxLimit) (hinj : HashInj p) (hpf : PrefixFree p) {w : World State}
    (h : Run p me honest (w, [])) {q : Queries} (hq : (sys p me honest).queriesOk w q) {seller coll : Addr} (hne : seller ≠ me)
    {tok : Bytes} (hh : honest coll) (hv : p.valid coll = true) {d : Details} {payTo : Addr} {finder : Option Addr}
    (ho : HasToSell w seller coll tok d payTo finder) :
    ∃ a, acceptorAsk p ((sys p me honest).ctx w q) seller coll tok d w.st = .ok a ∧ a.collection = coll ∧
      a.tokenId = tok ∧ a.assetRecipient = payTo ∧ a.details.finder = finder ∧
      ∃ o, w.owner coll tok = some o ∧ (o = me ∨ w.approved coll tok = true) := by
  have hw := (Spec.Run.reach h).wf
  cases ho with
  | listed id a ha hc ht hs =>
    subst hc ht hs
    refine ⟨a, ?_, rfl, rfl, rfl, rfl, me, C07_custody hlim h ha hh, Or.inl rfl⟩
    unfold acceptorAsk
    rw [← (hw.ask ha).2.1]
    have : w.st.asks.get? id = some a := ha
    simp only [this, ensure_eq, ok_bind]
  | held ho happ =>
    have hno : w.st.asks.get? (askId p coll tok) = none := by
      cases hg : w.st.asks.get? (askId p coll tok) with
      | none => rfl
      | some a =>
        exfalso
        obtain ⟨-, h1, h2, -⟩ := hw.ask hg
        obtain ⟨e1, e2⟩ := askId_inj hinj hpf hv h2 h1
        have := C07_custody hlim h hg (by rw [← e1]; exact hh)
        rw [← e1, ← e2, ho] at this
        exact hne (Option.some.inj this)
    refine ⟨Ask.new p seller coll tok d, ?_, rfl, rfl, rfl, rfl, seller, ho, Or.inr happ⟩
    unfold acceptorAsk
    have hon : onlyOwner ((sys p me honest).ctx w q) seller coll tok = .ok () := by
      unfold onlyOwner
      have : ((sys p me honest).ctx w q).q.ownerOf coll tok = some seller := (hq coll tok hh).trans ho
      rw [this]; simp
    simp only [hno, hon, ok_bind]

/-- The owner of a token can sell it into any open bid for it on a conforming collection, at or above their limit,
provided the sale can be settled: AcceptBid is accepted and completes. The bidder's recipient then owns the token, the
bid is gone and its price has been paid out according to the split. -/
theorem C79_accept_bid (hlim : 1 ≤ p.maxLimit) (hinj : HashInj p) (hpf : PrefixFree p) {w : World State}
    (h : Run p me honest (w, []))
    {q : Queries} (hq : (sys p me honest).queriesOk w q) {id : Bytes} {b : Bid} (hb : w.st.bids.get? id = some b)
    (hh : honest b.collection) {seller : Addr} (hne : seller ≠ me) {d : Details} (hd : ValidDetails p d)
    (hden : d.price.denom = b.details.price.denom) (hamt : d.price.amount ≤ b.details.price.amount)
    {payTo : Addr} {finder : Option Addr} (ho : HasToSell w seller b.collection b.tokenId d payTo finder)
    {pays : List (Addr × Nat)}
    (hs : Settles p q w.st.config b.collection b.details.price payTo b.details.finder finder pays) :
    ∃ w' s' msgs, execute p ((sys p me honest).ctx w q) seller [] (.acceptBid id d) w.st = .ok (s', msgs) ∧
      (sys p me honest).Steps (w, []) (w', []) ∧ w'.st = s' ∧ s'.bids.get? id = none ∧
      w'.owner b.collection b.tokenId = some (b.details.recipient.getD b.creator) ∧
      (∀ c t, (c, t) ≠ (b.collection, b.tokenId) → w'.owner c t = w.owner c t) ∧
      ∀ x dn, x ≠ me → w'.bank x dn = w.bank x dn + received x dn b.details.price.denom pays := by
  have hr := Spec.Run.reach h
  have hw := hr.wf
  obtain ⟨a, hacc, hc, ht, hpt, hfd, o, hown, hauth⟩ :=
    acceptor_succeeds hlim hinj hpf h hq hne hh (hw.bid hb).2.1 ho
  have hs' : Settles p ((sys p me honest).ctx w q).q w.st.config a.collection
      (saleTerms a (.bid b) false).1 a.assetRecipient (saleTerms a (.bid b) false).2.1 (saleTerms a (.bid b) false).2.2 pays := by
    rw [hc, hpt]
    show Settles p q w.st.config b.collection b.details.price payTo b.details.finder a.details.finder pays
    rw [hfd]; exact hs
  obtain ⟨x⟩ := sale_succeeds hw hs'
  obtain ⟨r, hfin⟩ := finalize_succeeds (t := w.st) hw rfl hs' []
  have hx : execute p ((sys p me honest).ctx w q) seller [] (.acceptBid id d) w.st = .ok r := by
    simp only [execute, executeAcceptBid, bind_ok, strToAddr_ok, orErr_ok, ensure_ok]
    refine ⟨d, ⟨hd, rfl⟩, b, hb, (), ?_, a, hacc, hfin⟩
    rw [hasCoins_single]; exact ⟨hden.symm, hamt⟩
  obtain ⟨x, hr'⟩ := finalizeSale_ok p hfin
  obtain ⟨s', msgs⟩ := r
  rw [List.nil_append, Prod.mk.injEq] at hr'
  obtain ⟨e1, e2⟩ := hr'
  have hsale : Nonempty (Sale q [] w.st s' (.acceptBid id d) msgs
      ⟨none, b.collection, b.tokenId, seller, d.price, payTo, finder⟩
      ⟨some id, none, b.collection, some b.tokenId, b.creator, b.details.price,
        b.details.recipient.getD b.creator, b.details.finder, [b.details.price]⟩) := by
    refine mkSale hw [] _ x _ _ [] [] msgs (by rw [e2]; simp) rfl rfl hc.symm ht.symm hpt.symm hfd.symm rfl rfl (by simp) (by simp)
      rfl (by simp) ?_ (by simp)
    intro i hi
    cases hi
    rw [e1]
    unfold afterSale removeMatching
    simp only
    rw [(hw.bid hb).1]
    exact AMap.get?_erase_self _ _
  obtain ⟨y⟩ := hsale
  have hpays : y.pays = pays := Option.some.inj (y.hpays.symm.trans hs.pays)
  obtain ⟨w', h1, h2, h3, h4, h5⟩ := sale_completes hlim h hq hne (fun _ => Nat.zero_le _) hx y rfl hh hown hauth
  refine ⟨w', s', msgs, hx, h1, h2, y.hbid _ rfl, h3, h4, ?_⟩
  intro z dn hz
  have k1 := h5 z dn hz
  have k2 : y.post = [] := y.hback
  rw [hpays, k2] at k1
  simp only [amountOf, paidOut, ite_self, Nat.add_zero] at k1
  exact k1

/-- The same for collection bids, with any token of the collection. -/
theorem C79_accept_cbid (hlim : 1 ≤ p.maxLimit) (hinj : HashInj p) (hpf : PrefixFree p) {w : World State}
    (h : Run p me honest (w, []))
    {q : Queries} (hq : (sys p me honest).queriesOk w q) {id tok : Bytes} {b : CBid} (hb : w.st.cbids.get? id = some b)
    (hh : honest b.collection) {seller : Addr} (hne : seller ≠ me) {d : Details} (hd : ValidDetails p d)
    (hden : d.price.denom = b.details.price.denom) (hamt : d.price.amount ≤ b.details.price.amount)
    {payTo : Addr} {finder : Option Addr} (ho : HasToSell w seller b.collection tok d payTo finder)
    {pays : List (Addr × Nat)}
    (hs : Settles p q w.st.config b.collection b.details.price payTo b.details.finder finder pays) :
    ∃ w' s' msgs, execute p ((sys p me honest).ctx w q) seller [] (.acceptCollectionBid id tok d) w.st = .ok (s', msgs) ∧
      (sys p me honest).Steps (w, []) (w', []) ∧ w'.st = s' ∧ s'.cbids.get? id = none ∧
      w'.owner b.collection tok = some (b.details.recipient.getD b.creator) ∧
      (∀ c t, (c, t) ≠ (b.collection, tok) → w'.owner c t = w.owner c t) ∧
      ∀ x dn, x ≠ me → w'.bank x dn = w.bank x dn + received x dn b.details.price.denom pays := by
  have hr := Spec.Run.reach h
  have hw := hr.wf
  obtain ⟨a, hacc, hc, ht, hpt, hfd, o, hown, hauth⟩ :=
    acceptor_succeeds hlim hinj hpf h hq hne hh (hw.cbid hb).2.1 ho
  have hs' : Settles p ((sys p me honest).ctx w q).q w.st.config a.collection
      (saleTerms a (.cbid b) false).1 a.assetRecipient (saleTerms a (.cbid b) false).2.1 (saleTerms a (.cbid b) false).2.2 pays := by
    rw [hc, hpt]
    show Settles p q w.st.config b.collection b.details.price payTo b.details.finder a.details.finder pays
    rw [hfd]; exact hs
  obtain ⟨x⟩ := sale_succeeds hw hs'
  obtain ⟨r, hfin⟩ := finalize_succeeds (t := w.st) hw rfl hs' []
  have hx : execute p ((sys p me honest).ctx w q) seller [] (.acceptCollectionBid id tok d) w.st = .ok r := by
    simp only [execute, executeAcceptCollectionBid, bind_ok, strToAddr_ok, orErr_ok, ensure_ok]
    refine ⟨d, ⟨hd, rfl⟩, b, hb, (), ?_, a, hacc, hfin⟩
    rw [hasCoins_single]; exact ⟨hden.symm, hamt⟩
  obtain ⟨x, hr'⟩ := finalizeSale_ok p hfin
  obtain ⟨s', msgs⟩ := r
  rw [List.nil_append, Prod.mk.injEq] at hr'
  obtain ⟨e1, e2⟩ := hr'
  have hsale : Nonempty (Sale q [] w.st s' (.acceptCollectionBid id tok d) msgs
      ⟨none, b.collection, tok, seller, d.price, payTo, finder⟩
      ⟨none, some id, b.collection, none, b.creator, b.details.price,
        b.details.recipient.getD b.creator, b.details.finder, [b.details.price]⟩) := by
    refine mkSale hw [] _ x _ _ [] [] msgs (by rw [e2]; simp) rfl rfl hc.symm ht.symm hpt.symm hfd.symm rfl rfl (by simp) (by simp)
      rfl (by simp) (by simp) ?_
    intro i hi
    cases hi
    rw [e1]
    unfold afterSale removeMatching
    simp only
    rw [(hw.cbid hb).1]
    exact AMap.get?_erase_self _ _
  obtain ⟨y⟩ := hsale
  have hpays : y.pays = pays := Option.some.inj (y.hpays.symm.trans hs.pays)
  obtain ⟨w', h1, h2, h3, h4, h5⟩ := sale_completes hlim h hq hne (fun _ => Nat.zero_le _) hx y rfl hh hown hauth
  refine ⟨w', s', msgs, hx, h1, h2, y.hcbid _ rfl, h3, h4, ?_⟩
  intro z dn hz
  have k1 := h5 z dn hz
  have k2 : y.post = [] := y.hback
  rw [hpays, k2] at k1
  simp only [amountOf, paidOut, ite_self, Nat.add_zero] at k1
  exact k1

namespace Sample
/-- bob bids 80 while alice holds the token -/
def wb : World State := at_ w1 (some alice) bob [⟨ust, 80⟩] (.setBid coll tok (det 80))
theorem runwb : Run P self hon (wb, []) :=
  call2 runw1 (by decide) (ust_only (by decide +kernel)) (fun _ _ => rfl) (by decide +kernel) (by decide +kernel)
theorem settles80 : Settles P (q (some alice) none) wb.st.config coll ⟨ust, 80⟩ alice none none
    [(feeMgr, 2), (artist, 4), (alice, 74)] := by
  refine ⟨by decide, by decide, ?_, by decide +kernel⟩
  intro i r _ hi hr
  cases hi
  cases hr
  decide
/-- alice sells from her wallet into bob's bid -/
example := C79_accept_bid (by decide) hashInj prefixFree runwb (q := q (some alice) none) (fun _ _ _ => rfl)
  (id := P.hash (coll ++ tok ++ be8 7 ++ be8 1)) (b := Bid.new P bob coll tok (det 80) 7 1) (by decide +kernel) trivial
  (seller := alice) (by decide) (d := det 60) ⟨by simp [det], by simp [det]⟩ rfl (by decide)
  (.held (by decide +kernel) rfl) settles80
theorem settles85 : Settles P (q (some self) none) w6.st.config coll ⟨ust, 85⟩ alice none none
    [(feeMgr, 2), (artist, 5), (alice, 78)] := by
  refine ⟨by decide, by decide, ?_, by decide +kernel⟩
  intro i r _ hi hr
  cases hi
  cases hr
  decide
/-- alice sells her listed token into carol's collection bid -/
example := C79_accept_cbid (by decide) hashInj prefixFree runw6 (q := q (some self) none) (fun c t _ => w5_owner c t)
  (id := cid) (tok := tok) (b := CBid.new P carol coll (det 85) 7 2) (by decide +kernel) trivial
  (seller := alice) (by decide) (d := det 60) ⟨by simp [det], by simp [det]⟩ rfl (by decide)
  (.listed aid (Ask.new P alice coll tok (det 100)) (by decide +kernel) rfl rfl rfl) settles85
end Sample

/-! ### C80 placing orders -/

/-- The collection is tradable as far as the contract can tell. -/
def Spec.Tradable (q : Queries) (time : Nat) (coll : Addr) : Prop :=
  ∀ i t, q.collInfo coll = some i → i.start = some t → t ≤ time

theorem tradable_ok {ctx : Ctx} {coll : Addr} (h : Tradable ctx.q ctx.time coll) : onlyTradable ctx coll = .ok () := by
  unfold onlyTradable
  cases hi : ctx.q.collInfo coll with
  | none => rfl
  | some i =>
    simp only
    cases ht : i.start with
    | none => rfl
    | some t =>
      have := h i t hi ht
      simp only
      rw [if_neg (by omega)]

theorem denom_priceOk {s : State} {c : Addr} {x : Coin} (h1 : x.denom = denomOf s c) (h2 : 0 < x.amount) : PriceOk s c x := by
  refine ⟨h2, ?_⟩
  rw [h1]
  unfold denomOf
  cases s.collectionDenoms.get? c <;> rfl

/-- A bid below every listing of the token is accepted: it is recorded under a new id and the bidder has paid
exactly its price. -/
theorem C80_set_bid (hlim : 1 ≤ p.maxLimit) (hinj : HashInj p) (hpf : PrefixFree p) {w : World State}
    (h : Run p me honest (w, [])) (hr : Reach p me NoWrap w.st) (hg : NoWrap w.st)
    {q : Queries} (hq : (sys p me honest).queriesOk w q) {bidder coll tok : Bytes} (hne : bidder ≠ me)
    (hv : p.valid coll = true) {d : Details} (hd : ValidDetails p d) (htr : Tradable q w.time coll)
    (hden : d.price.denom = denomOf w.st coll) (hpos : 0 < d.price.amount) {n : Nat} (hn : d.price.amount ≤ n)
    (hbal : n ≤ w.bank bidder d.price.denom)
    (hno : ∀ id a, w.st.asks.get? id = some a → a.collection = coll → a.tokenId = tok →
      a.details.price.denom = d.price.denom → d.price.amount < a.details.price.amount) :
    ∃ w' s' msgs id b, execute p ((sys p me honest).ctx w q) bidder [⟨d.price.denom, n⟩] (.setBid coll tok d) w.st = .ok (s', msgs) ∧
      (sys p me honest).Steps (w, []) (w', []) ∧ w'.st = s' ∧ w.st.bids.get? id = none ∧ s'.bids.get? id = some b ∧
      b.creator = bidder ∧ b.collection = coll ∧ b.tokenId = tok ∧ b.details = d ∧ w'.owner = w.owner ∧
      ∀ x dn, x ≠ me → w'.bank x dn + (if x = bidder then amountOf dn [d.price] else 0) = w.bank x dn := by
  have hw := hr.wf
  obtain ⟨left, hl⟩ := sub_one (den := d.price.denom) hn
  have hfresh := fresh_bid hr.nonce hinj hg bidder coll tok d ((sys p me honest).ctx w q).height
  have hmn : (Bid.new p bidder coll tok d ((sys p me honest).ctx w q).height (nextNonce w.st)).matchWithAsk p
      { w.st with nonce := nextNonce w.st } = none := by
    cases hm : (Bid.new p bidder coll tok d ((sys p me honest).ctx w q).height (nextNonce w.st)).matchWithAsk p
      { w.st with nonce := nextNonce w.st } with
    | none => rfl
    | some a =>
      exfalso
      obtain ⟨h1, h2, h3⟩ := bidMatch_some hm
      have h1' : w.st.asks.get? (askId p coll tok) = some a := h1
      obtain ⟨-, k1, k2, -⟩ := hw.ask h1'
      obtain ⟨e1, e2⟩ := askId_inj hinj hpf hv k2 k1
      have := hno _ a h1' e1.symm e2.symm h2.symm
      have h3' : a.details.price.amount ≤ d.price.amount := h3
      omega
  have hx : execute p ((sys p me honest).ctx w q) bidder [⟨d.price.denom, n⟩] (.setBid coll tok d) w.st =
      .ok ({ w.st with nonce := nextNonce w.st,
                       bids := w.st.bids.insert (Bid.new p bidder coll tok d ((sys p me honest).ctx w q).height (nextNonce w.st)).id
                         (Bid.new p bidder coll tok d ((sys p me honest).ctx w q).height (nextNonce w.st)) },
        refund bidder left []) := by
    simp only [execute, executeSetBid, bind_ok, addrValidate_ok, strToAddr_ok, onlyValidPrice_ok]
    refine ⟨coll, ⟨hv, rfl⟩, d, ⟨hd, rfl⟩, (), tradable_ok htr, (), denom_priceOk hden hpos, _, normalize_one (by omega), ?_⟩
    simp only [hmn, Bool.false_eq_true, if_false, bind_ok, takePrice_ok, ensure_ok]
    exact ⟨left, hl, (), hfresh, rfl⟩
  obtain ⟨post, hp1, hp2, hp3⟩ := refund_eq bidder left []
  rw [List.nil_append] at hp1
  have hnn : ∀ c t to, Msg.nft c t to ∉ refund bidder left [] := by
    intro c t to hm
    rw [hp1] at hm
    obtain ⟨cs, h⟩ := hp2 _ hm
    cases h
  obtain ⟨w', k1, k2, k3, -, k5⟩ := C77_completes hlim h hq hne (amountOf_one hbal) hx
    (fun c t to hm => absurd hm (hnn c t to))
  refine ⟨w', _, _, _, _, hx, k1, k2, hfresh, AMap.get?_insert_self _ _ _, rfl, rfl, rfl, rfl, ?_, ?_⟩
  · funext c t; exact k5 c t (fun to => hnn c t to)
  · intro x dn hx'
    have e1 := k3 x dn hx'
    have e2 := (nbSub_ok hl).1 dn
    rw [hp1, gets_sends x bidder dn hp2, hp3] at e1
    rw [amountOf_singleton]
    have e3 : d.price.inDenom dn = (⟨d.price.denom, d.price.amount⟩ : Coin).inDenom dn := rfl
    rw [e3]
    by_cases e : x = bidder
    · simp only [if_pos e] at e1 ⊢; simp only [amountOf_singleton] at e1 e2; omega
    · simp only [if_neg e] at e1 ⊢; omega

/-- The same for a bid on a whole collection. -/
theorem C80_set_collection_bid (hlim : 1 ≤ p.maxLimit) (hinj : HashInj p) {w : World State}
    (h : Run p me honest (w, [])) (hr : Reach p me NoWrap w.st) (hg : NoWrap w.st)
    {q : Queries} (hq : (sys p me honest).queriesOk w q) {bidder coll : Bytes} (hne : bidder ≠ me)
    (hv : p.valid coll = true) {d : Details} (hd : ValidDetails p d) (htr : Tradable q w.time coll)
    (hden : d.price.denom = denomOf w.st coll) (hpos : 0 < d.price.amount) (hmax : d.price.amount + 1 < 2^128)
    {n : Nat} (hn : d.price.amount ≤ n) (hbal : n ≤ w.bank bidder d.price.denom)
    (hno : ∀ id a, w.st.asks.get? id = some a → a.collection = coll →
      a.details.price.denom = d.price.denom → d.price.amount < a.details.price.amount) :
    ∃ w' s' msgs id b, execute p ((sys p me honest).ctx w q) bidder [⟨d.price.denom, n⟩] (.setCollectionBid coll d) w.st = .ok (s', msgs) ∧
      (sys p me honest).Steps (w, []) (w', []) ∧ w'.st = s' ∧ w.st.cbids.get? id = none ∧ s'.cbids.get? id = some b ∧
      b.creator = bidder ∧ b.collection = coll ∧ b.details = d ∧ w'.owner = w.owner ∧
      ∀ x dn, x ≠ me → w'.bank x dn + (if x = bidder then amountOf dn [d.price] else 0) = w.bank x dn := by
  have hw := hr.wf
  obtain ⟨left, hl⟩ := sub_one (den := d.price.denom) hn
  have hfresh := fresh_cbid hr.nonce hinj hg bidder coll d ((sys p me honest).ctx w q).height
  have hmn : (CBid.new p bidder coll d ((sys p me honest).ctx w q).height (nextNonce w.st)).matchWithAsk p
      { w.st with nonce := nextNonce w.st } = .ok none := by
    cases hm : (CBid.new p bidder coll d ((sys p me honest).ctx w q).height (nextNonce w.st)).matchWithAsk p
      { w.st with nonce := nextNonce w.st } with
    | error e =>
      exfalso
      unfold CBid.matchWithAsk at hm
      rw [show u128 ((CBid.new p bidder coll d ((sys p me honest).ctx w q).height (nextNonce w.st)).details.price.amount + 1)
        = .ok (d.price.amount + 1) from u128_le (by unfold U128MAX; show d.price.amount + 1 ≤ _; omega), ok_bind] at hm
      cases hm
    | ok o =>
      cases o with
      | none => rfl
      | some a =>
        exfalso
        obtain ⟨⟨id, h1⟩, h2, h3, h4, -⟩ := cbidMatch_some hlim hm
        have := hno id a h1 h2 h3
        have h4' : a.details.price.amount ≤ d.price.amount := h4
        omega
  have hx : execute p ((sys p me honest).ctx w q) bidder [⟨d.price.denom, n⟩] (.setCollectionBid coll d) w.st =
      .ok ({ w.st with nonce := nextNonce w.st,
                       cbids := w.st.cbids.insert (CBid.new p bidder coll d ((sys p me honest).ctx w q).height (nextNonce w.st)).id
                         (CBid.new p bidder coll d ((sys p me honest).ctx w q).height (nextNonce w.st)) },
        refund bidder left []) := by
    simp only [execute, executeSetCollectionBid, bind_ok, addrValidate_ok, strToAddr_ok, onlyValidPrice_ok]
    refine ⟨coll, ⟨hv, rfl⟩, d, ⟨hd, rfl⟩, (), tradable_ok htr, (), denom_priceOk hden hpos, _, normalize_one (by omega), none, hmn, ?_⟩
    simp only [Bool.false_eq_true, if_false, bind_ok, takePrice_ok, ensure_ok]
    exact ⟨left, hl, (), hfresh, rfl⟩
  obtain ⟨post, hp1, hp2, hp3⟩ := refund_eq bidder left []
  rw [List.nil_append] at hp1
  have hnn : ∀ c t to, Msg.nft c t to ∉ refund bidder left [] := by
    intro c t to hm
    rw [hp1] at hm
    obtain ⟨cs, h⟩ := hp2 _ hm
    cases h
  obtain ⟨w', k1, k2, k3, -, k5⟩ := C77_completes hlim h hq hne (amountOf_one hbal) hx
    (fun c t to hm => absurd hm (hnn c t to))
  refine ⟨w', _, _, _, _, hx, k1, k2, hfresh, AMap.get?_insert_self _ _ _, rfl, rfl, rfl, ?_, ?_⟩
  · funext c t; exact k5 c t (fun to => hnn c t to)
  · intro x dn hx'
    have e1 := k3 x dn hx'
    have e2 := (nbSub_ok hl).1 dn
    rw [hp1, gets_sends x bidder dn hp2, hp3] at e1
    rw [amountOf_singleton]
    have e3 : d.price.inDenom dn = (⟨d.price.denom, d.price.amount⟩ : Coin).inDenom dn := rfl
    rw [e3]
    by_cases e : x = bidder
    · simp only [if_pos e] at e1 ⊢; simp only [amountOf_singleton] at e1 e2; omega
    · simp only [if_neg e] at e1 ⊢; omega

/-- The owner of a token on a conforming collection can list it above every open bid, paying the listing fee in a denom
for which the admin has set a positive one: the listing is recorded, the contract holds the token and the fee manager
has the fee. -/
theorem C80_set_ask (hlim : 1 ≤ p.maxLimit) (hinj : HashInj p) (hpf : PrefixFree p) (hns : NoSlash p) {w : World State}
    (h : Run p me honest (w, [])) {q : Queries} (hq : (sys p me honest).queriesOk w q) {seller coll tok : Bytes}
    (hne : seller ≠ me) (hv : p.valid coll = true) (hh : honest coll) {d : Details} (hd : ValidDetails p d)
    (htr : Tradable q w.time coll) (hden : d.price.denom = denomOf w.st coll) (hpos : 0 < d.price.amount)
    (ho : w.owner coll tok = some seller) (happ : w.approved coll tok = true) {fee : Coin}
    (hfee : w.st.listingFees.get? fee.denom = some fee.amount) (hfpos : 0 < fee.amount)
    (hbal : fee.amount ≤ w.bank seller fee.denom)
    (hno : ∀ id b, w.st.bids.get? id = some b → b.collection = coll → b.tokenId = tok →
      b.details.price.denom = d.price.denom → b.details.price.amount < d.price.amount)
    (hnoc : ∀ id b, w.st.cbids.get? id = some b → b.collection = coll →
      b.details.price.denom = d.price.denom → b.details.price.amount < d.price.amount) :
    ∃ w' s' msgs id a, execute p ((sys p me honest).ctx w q) seller [fee] (.setAsk coll tok d) w.st = .ok (s', msgs) ∧
      (sys p me honest).Steps (w, []) (w', []) ∧ w'.st = s' ∧ w.st.asks.get? id = none ∧ s'.asks.get? id = some a ∧
      a.creator = seller ∧ a.collection = coll ∧ a.tokenId = tok ∧ a.details = d ∧ w'.owner coll tok = some me ∧
      (∀ c t, (c, t) ≠ (coll, tok) → w'.owner c t = w.owner c t) ∧
      ∀ x dn, x ≠ me → w'.bank x dn + (if x = seller then amountOf dn [fee] else 0) =
        w.bank x dn + if x = w.st.config.feeManager then amountOf dn [fee] else 0 := by
  have hr := Spec.Run.reach h
  have hw := hr.wf
  have hnew : w.st.asks.get? (askId p coll tok) = none := by
    cases hg : w.st.asks.get? (askId p coll tok) with
    | none => rfl
    | some a =>
      exfalso
      obtain ⟨-, h1, h2, -⟩ := hw.ask hg
      obtain ⟨e1, e2⟩ := askId_inj hinj hpf hv h2 h1
      have := C07_custody hlim h hg (by rw [← e1]; exact hh)
      rw [← e1, ← e2, ho] at this
      exact hne (Option.some.inj this)
  have hmn : (Ask.new p seller coll tok d).matchWithBid p w.st = none := by
    cases hm : (Ask.new p seller coll tok d).matchWithBid p w.st with
    | none => rfl
    | some mb =>
      exfalso
      cases mb with
      | bid b =>
        obtain ⟨⟨id, h1⟩, h2, h3, h4, -⟩ := matchWithBid_bid hlim hm
        obtain ⟨e1, e2⟩ := indexStr_inj (hns _ (hw.bid h1).2.1) (hns _ hv) h2
        have := hno id b h1 e1 e2 h3
        have h4' : d.price.amount ≤ b.details.price.amount := h4
        omega
      | cbid b =>
        obtain ⟨⟨id, h1⟩, h2, h3, h4, -⟩ := matchWithBid_cbid hlim hm
        have := hnoc id b h1 h2 h3
        have h4' : d.price.amount ≤ b.details.price.amount := h4
        omega
  have hon : onlyOwner ((sys p me honest).ctx w q) seller coll tok = .ok () := by
    unfold onlyOwner
    have : ((sys p me honest).ctx w q).q.ownerOf coll tok = some seller := (hq coll tok hh).trans ho
    rw [this]; simp
  have hx : execute p ((sys p me honest).ctx w q) seller [fee] (.setAsk coll tok d) w.st =
      .ok ({ w.st with asks := w.st.asks.insert (askId p coll tok) (Ask.new p seller coll tok d) },
        [.send w.st.config.feeManager [fee], .nft coll tok me]) := by
    simp only [execute, executeSetAsk, bind_ok, addrValidate_ok, strToAddr_ok, onlyValidPrice_ok, oneCoin_ok, orErr_ok, ensure_ok]
    refine ⟨coll, ⟨hv, rfl⟩, d, ⟨hd, rfl⟩, (), hon, (), tradable_ok htr, (), denom_priceOk hden hpos, fee, ⟨rfl, hfpos⟩,
      fee.amount, hfee, (), rfl, ?_⟩
    simp only [hmn, Bool.false_eq_true, if_false, bind_ok, ensure_ok]
    exact ⟨(), hnew, rfl⟩
  have hmem : ∀ c t to, Msg.nft c t to ∈ [Msg.send w.st.config.feeManager [fee], .nft coll tok me] ↔ c = coll ∧ t = tok ∧ to = me := by
    intro c t to; simp
  obtain ⟨w', k1, k2, k3, k4, k5⟩ := C77_completes hlim h hq hne (amountOf_one (den := fee.denom) (n := fee.amount) hbal) hx (by
    intro c t to hm
    obtain ⟨rfl, rfl, rfl⟩ := (hmem c t to).mp hm
    exact ⟨hh, seller, ho, Or.inr happ⟩)
  refine ⟨w', _, _, _, _, hx, k1, k2, hnew, AMap.get?_insert_self _ _ _, rfl, rfl, rfl, rfl,
    k4 _ _ _ ((hmem _ _ _).mpr ⟨rfl, rfl, rfl⟩), ?_, ?_⟩
  · intro c t hct
    apply k5
    intro to hm
    obtain ⟨rfl, rfl, -⟩ := (hmem c t to).mp hm
    exact hct rfl
  · intro x dn hx'
    have e1 := k3 x dn hx'
    simp only [gets, Nat.add_zero] at e1
    by_cases e : x = w.st.config.feeManager
    · subst e; simp only [if_true] at e1 ⊢; exact e1
    · rw [if_neg (Ne.symm e)] at e1; rw [if_neg e]; exact e1

namespace Sample
theorem r1' : Reach P self NoWrap w1.st := r1
theorem no_asks (id : Bytes) (a : Ask) : w1.st.asks.get? id ≠ some a := by
  have : w1.st.asks = .empty := rfl
  rw [this]; simp [AMap.empty, AMap.get?]
theorem no_bids (id : Bytes) (a : Bid) : w1.st.bids.get? id ≠ some a := by
  have : w1.st.bids = .empty := rfl
  rw [this]; simp [AMap.empty, AMap.get?]
theorem no_cbids (id : Bytes) (a : CBid) : w1.st.cbids.get? id ≠ some a := by
  have : w1.st.cbids = .empty := rfl
  rw [this]; simp [AMap.empty, AMap.get?]
example := C80_set_bid (by decide) hashInj prefixFree runw1 r1' (by decide +kernel) (q := q (some alice) none) (fun _ _ _ => rfl)
  (bidder := bob) (coll := coll) (tok := tok) (by decide) (by decide) (d := det 80) ⟨by simp [det], by simp [det]⟩
  (by intro i t h1 h2; cases h1; cases h2) (by decide +kernel) (by decide) (n := 90) (by decide) (by decide +kernel)
  (fun id a h => absurd h (no_asks id a))
example := C80_set_collection_bid (by decide) hashInj runw1 r1' (by decide +kernel) (q := q (some alice) none) (fun _ _ _ => rfl)
  (bidder := bob) (coll := coll) (by decide) (by decide) (d := det 80) ⟨by simp [det], by simp [det]⟩
  (by intro i t h1 h2; cases h1; cases h2) (by decide +kernel) (by decide) (by decide) (n := 90) (by decide) (by decide +kernel)
  (fun id a h => absurd h (no_asks id a))
example := C80_set_ask (by decide) hashInj prefixFree noSlash runw1 (q := q (some alice) none) (fun _ _ _ => rfl)
  (seller := alice) (coll := coll) (tok := tok) (by decide) (by decide) trivial (d := det 80) ⟨by simp [det], by simp [det]⟩
  (by intro i t h1 h2; cases h1; cases h2) (by decide +kernel) (by decide) (by decide +kernel) rfl (fee := ⟨ust, 5⟩)
  (by decide +kernel) (by decide) (by decide +kernel) (fun id a h => absurd h (no_bids id a)) (fun id a h => absurd h (no_cbids id a))
end Sample

end
end Verif.V2

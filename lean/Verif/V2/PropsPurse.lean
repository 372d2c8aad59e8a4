/-
Marketplace v2: the money of a single account (C125).
-/
import Verif.Base.Purse
import Verif.V2.PropsLedger
import Verif.V2.PropsSale

namespace Verif.V2
open Verif Spec

section
variable {p : Params} {me : Addr}

/-! ### Specification -/

/-- Prices of the open bids and collection bids of one account. -/
def Spec.ownCoins (a : Addr) (s : State) : List Coin :=
  (s.bids.vals.filter (fun b => decide (b.creator = a))).map (fun b => b.details.price) ++
  (s.cbids.vals.filter (fun b => decide (b.creator = a))).map (fun b => b.details.price)

/-- A trade as a bookkeeper sees it: the two sides, the price charged and who is paid how much of it. -/
structure Spec.Deal where
  sell : Sell
  buy : Buy
  price : Coin
  pays : List (Addr × Nat)

/-- The trade made by a call, or `none` if it made none. -/
def Spec.Billed (self : Addr) (q : Queries) (s : State) (sender : Addr) (m : Exec) (s' : State)
    (msgs : List Msg) : Option Deal → Prop
  | none => ¬ Trades m s' self msgs
  | some D => Trades m s' self msgs ∧ SellBy s sender m D.sell ∧ BuyBy s sender m D.buy ∧
      D.price = priceOf m D.sell D.buy ∧
      split D.price.amount D.sell.payTo
        (feeShares s.config (makerOf m D.sell D.buy) (takerOf m D.sell D.buy) ++ royaltyShare q s.config D.sell.coll)
        = some D.pays

/-- What `a` pays for by a call: the listing fee for its own listings, and the price of what it buys. -/
def Spec.spent (a : Addr) (d : Denom) (sender : Addr) (funds : List Coin) (m : Exec) (D : Option Deal) : Nat :=
  (if Lists m = true ∧ sender = a then amountOf d funds else 0) +
  match D with
  | none => 0
  | some D => if D.buy.who = a then amountOf d [D.price] else 0

/-- What `a` earns by a call: its part of the price, and the listing fee if it collects the fees. -/
def Spec.earned (a : Addr) (d : Denom) (s : State) (funds : List Coin) (m : Exec) (D : Option Deal) : Nat :=
  (if Lists m = true ∧ s.config.feeManager = a then amountOf d funds else 0) +
  match D with
  | none => 0
  | some D => if D.price.denom = d then share a D.pays else 0

/-- What `a` attaches to a call. -/
def Spec.brought (a : Addr) (d : Denom) (sender : Addr) (funds : List Coin) : Nat :=
  if sender = a then amountOf d funds else 0

/-- What `a` attaches to a call that has no use for it. -/
def Spec.lost (a : Addr) (d : Denom) (sender : Addr) (funds : List Coin) (m : Exec) : Nat :=
  if Keeps m = true ∧ sender = a then amountOf d funds else 0

/-! ### Lemmas -/

/-- Escrow of the bids whose creators satisfy `P`. -/
def part (P : Addr → Bool) (d : Denom) (s : State) : Nat :=
  s.bids.sum (fun b => if P b.creator = true then b.details.price.inDenom d else 0) +
  s.cbids.sum (fun b => if P b.creator = true then b.details.price.inDenom d else 0)

theorem sum_filter {α : Type} (Q : α → Bool) (f : α → Nat) : ∀ l : List α,
    (l.map (fun x => if Q x = true then f x else 0)).sum = ((l.filter Q).map f).sum
  | [] => rfl
  | x :: l => by
    have ih := sum_filter Q f l
    rw [List.filter_cons]
    by_cases h : Q x = true <;> simp [h, ih]

theorem own_eq (a : Addr) (d : Denom) (s : State) :
    amountOf d (ownCoins a s) = part (fun x => decide (x = a)) d s := by
  unfold ownCoins part AMap.sum
  rw [amountOf_append, amountOf_map, amountOf_map, sum_filter (fun b : Bid => decide (b.creator = a)),
    sum_filter (fun b : CBid => decide (b.creator = a))]

theorem all_eq (d : Denom) (s : State) : amountOf d (bidCoins s) = part (fun _ => true) d s := by
  rw [← escrow_eq]
  simp [escrow, part]

/-- Which stored order a buyer's side refers to. -/
theorem buy_shape {s : State} {sender : Addr} {m : Exec} {B : Buy} (h : BuyBy s sender m B) :
    (B.bid = none ∧ B.cbid = none ∧ B.paid = []) ∨
    (∃ id b, B.bid = some id ∧ B.cbid = none ∧ s.bids.get? id = some b ∧ b.creator = B.who ∧ B.paid = [b.details.price]) ∨
    (∃ id b, B.bid = none ∧ B.cbid = some id ∧ s.cbids.get? id = some b ∧ b.creator = B.who ∧ B.paid = [b.details.price]) := by
  cases h with
  | acceptAsk => exact .inl ⟨rfl, rfl, rfl⟩
  | setBid => exact .inl ⟨rfl, rfl, rfl⟩
  | buySpecific => exact .inl ⟨rfl, rfl, rfl⟩
  | updateBid id d b hb hc => exact .inr (.inl ⟨id, b, rfl, rfl, hb, hc, rfl⟩)
  | setCBid => exact .inl ⟨rfl, rfl, rfl⟩
  | buyCollection => exact .inl ⟨rfl, rfl, rfl⟩
  | updateCBid id d b hb hc => exact .inr (.inr ⟨id, b, rfl, rfl, hb, hc, rfl⟩)
  | acceptBid id d b hb => exact .inr (.inl ⟨id, b, rfl, rfl, hb, rfl, rfl⟩)
  | acceptCBid id t d b hb => exact .inr (.inr ⟨id, b, rfl, rfl, hb, rfl, rfl⟩)
  | restBid _ id b _ hb => exact .inr (.inl ⟨id, b, rfl, rfl, hb, rfl, rfl⟩)
  | restCBid _ id b _ hb => exact .inr (.inr ⟨id, b, rfl, rfl, hb, rfl, rfl⟩)

theorem buy_seller {s : State} {sender : Addr} {m : Exec} {B : Buy} (h : BuyBy s sender m B)
    (hm : SellerCall m = true) : B.paid = [B.limit] := by
  cases h <;> first | rfl | cases hm

theorem buy_buyer {s : State} {sender : Addr} {m : Exec} {B : Buy} (h : BuyBy s sender m B)
    (hm : SellerCall m = false) : B.who = sender := by
  cases h with
  | acceptBid => cases hm
  | acceptCBid => cases hm
  | restBid _ _ _ ha => cases m <;> first | exact absurd ha (fun h => h) | cases hm
  | restCBid _ _ _ ha => cases m <;> first | exact absurd ha (fun h => h) | cases hm
  | _ => rfl

theorem sum_gone {V : Type} {m m' : AMap Bytes V} {id : Bytes} {v : V} (f : V → Nat) (hv : m.get? id = some v)
    (hn : m'.get? id = none) (h : ∀ k, some id ≠ some k → m'.get? k = m.get? k) : m'.sum f + f v = m.sum f := by
  have h1 := AMap.sum_erase_of_get? f hv
  have h2 := AMap.sum_ext (m := m') (m' := m.erase id) f rfl (by
    intro k
    rw [AMap.get?_erase]
    by_cases e : id = k
    · subst e; simp [hn]
    · rw [if_neg e]; exact h k (fun e' => e (Option.some.inj e')))
  omega

/-- A trade frees what was in escrow for the order of the buyer, and nothing else. -/
theorem part_trade {q : Queries} {s s' : State} {sender : Addr} {funds : List Coin} {m : Exec} {msgs : List Msg} {S : Sell}
    {B : Buy} (T : TradedWith p q s sender funds m s' msgs S B) (hinj : HashInj p) (hni : NonceInv p s) (hg : NoWrap s)
    (P : Addr → Bool) (d : Denom) :
    part P d s = part P d s' + (if P B.who = true then amountOf d B.paid else 0) := by
  obtain ⟨x⟩ := T.sale
  have hb := T.bids hinj hni hg
  have hc := T.cbids hinj hni hg
  unfold part
  rcases buy_shape T.buy with ⟨e1, e2, e3⟩ | ⟨id, b, e1, e2, e3, e4, e5⟩ | ⟨id, b, e1, e2, e3, e4, e5⟩
  · rw [AMap.sum_ext (m := s'.bids) _ rfl (fun k => hb k (by rw [e1]; simp)),
      AMap.sum_ext (m := s'.cbids) _ rfl (fun k => hc k (by rw [e2]; simp)), e3]
    simp [amountOf]
  · rw [AMap.sum_ext (m := s'.cbids) _ rfl (fun k => hc k (by rw [e2]; simp))]
    have := sum_gone (fun b : Bid => if P b.creator = true then b.details.price.inDenom d else 0) e3 (x.hbid id e1)
      (fun k hk => hb k (by rw [e1]; exact hk))
    simp only [e4] at this
    rw [e5, amountOf_singleton]
    omega
  · rw [AMap.sum_ext (m := s'.bids) _ rfl (fun k => hb k (by rw [e1]; simp))]
    have := sum_gone (fun b : CBid => if P b.creator = true then b.details.price.inDenom d else 0) e3 (x.hcbid id e2)
      (fun k hk => hc k (by rw [e2]; exact hk))
    simp only [e4] at this
    rw [e5, amountOf_singleton]
    omega

theorem paidOut_pays (d dn : Denom) : ∀ pays : List (Addr × Nat),
    paidOut d (pays.map (fun x => .send x.1 [⟨dn, x.2⟩])) = amountOf d [⟨dn, (pays.map Prod.snd).sum⟩]
  | [] => by simp [paidOut, amountOf, Coin.inDenom]
  | x :: l => by
    have ih := paidOut_pays d dn l
    simp only [List.map_cons, paidOut, ih, amountOf, Coin.inDenom, List.sum_cons]
    split <;> omega

/-- All messages that pay go to one account. -/
theorem sentTo_only {a : Addr} {d : Denom} {to : Addr} : ∀ {ms : List Msg},
    (∀ m ∈ ms, (∃ cs, m = .send to cs) ∨ ∃ r c, m = .initRoyalty r c) → sentTo a d ms = if to = a then paidOut d ms else 0
  | [], _ => by simp [sentTo, paidOut]
  | m :: ms, h => by
    have ih := sentTo_only (a := a) (d := d) (fun m hm => h m (List.mem_cons_of_mem _ hm))
    rcases h m List.mem_cons_self with ⟨cs, rfl⟩ | ⟨r, c, rfl⟩
    · simp only [sentTo, paidOut, ih]; split <;> rfl
    · exact ih

theorem paidOut_init {d : Denom} : ∀ {ms : List Msg}, (∀ m ∈ ms, ∃ r c, m = .initRoyalty r c) → paidOut d ms = 0
  | [], _ => rfl
  | m :: ms, h => by
    have ih := paidOut_init (d := d) (fun m hm => h m (List.mem_cons_of_mem _ hm))
    obtain ⟨r, c, rfl⟩ := h m List.mem_cons_self
    exact ih

/-- The books of one account across a call. -/
def Spec.Balanced (a : Addr) (d : Denom) (s : State) (sender : Addr) (funds : List Coin) (m : Exec) (s' : State)
    (msgs : List Msg) (D : Option Deal) : Prop :=
  amountOf d (ownCoins a s) + brought a d sender funds + earned a d s funds m D =
    amountOf d (ownCoins a s') + sentTo a d msgs + spent a d sender funds m D + lost a d sender funds m

theorem lists_sells {m : Exec} (h : Lists m = true) : SellerCall m = true ∧ Keeps m = false := by
  cases m <;> first | exact ⟨rfl, rfl⟩ | cases h

theorem keeps_buyer {m : Exec} {s : State} {sender : Addr} {B : Buy} (h : BuyBy s sender m B) (hm : SellerCall m = false) :
    Keeps m = false := by
  cases h with
  | acceptBid => cases hm
  | acceptCBid => cases hm
  | restBid _ _ _ ha => cases m <;> first | exact absurd ha (fun h => h) | rfl
  | restCBid _ _ _ ha => cases m <;> first | exact absurd ha (fun h => h) | rfl
  | _ => rfl

theorem trade_books (hlim : 1 ≤ p.maxLimit) (hinj : HashInj p) {ctx : Ctx} {sender : Addr} {funds : List Coin}
    {m : Exec} {s s' : State} {msgs : List Msg} (hr : Reach p me NoWrap s) (hg : NoWrap s)
    (hx : execute p ctx sender funds m s = .ok (s', msgs)) {S : Sell} {B : Buy}
    (T : TradedWith p ctx.q s sender funds m s' msgs S B) (x : Sale ctx.q funds s s' m msgs S B) (a : Addr) (d : Denom) :
    Balanced a d s sender funds m s' msgs (some ⟨S, B, priceOf m S B, x.pays⟩) := by
  have hacc := C04_account hlim hinj hr hg hx d
  have hni := Spec.Reach.nonce hr
  have hall := part_trade T hinj hni hg (fun _ => true) d
  have hown := part_trade T hinj hni hg (fun y => decide (y = a)) d
  rw [if_pos rfl] at hall
  rw [all_eq, all_eq] at hacc
  have hpay : paidOut d (x.pays.map (fun y => .send y.1 [⟨(priceOf m S B).denom, y.2⟩])) = amountOf d [priceOf m S B] := by
    rw [paidOut_pays, C01_split_total x.hpays]
  have hout : paidOut d msgs = paidOut d x.pre + amountOf d [priceOf m S B] + paidOut d x.post := by
    refine (congrArg (paidOut d) x.hmsgs).trans ?_
    rw [paidOut_append, paidOut_append, hpay]; rfl
  have hgot : sentTo a d msgs = sentTo a d x.pre + (if (priceOf m S B).denom = d then share a x.pays else 0) + sentTo a d x.post := by
    refine (congrArg (sentTo a d) x.hmsgs).trans ?_
    rw [sentTo_append, sentTo_append, sentTo_pays]; rfl
  have hpost : sentTo a d x.post = if B.who = a then paidOut d x.post else 0 := by
    apply sentTo_only
    intro y hy
    exact .inl (x.hpost y hy)
  have hback := x.hback
  have hpre : sentTo a d x.pre = if s.config.feeManager = a then paidOut d x.pre else 0 := by
    apply sentTo_only
    intro y hy
    rcases x.hpre y hy with ⟨_, e⟩ | e
    · exact .inl ⟨_, e⟩
    · exact .inr ⟨_, _, e⟩
  have hpre0 : Lists m = false → paidOut d x.pre = 0 := by
    intro hl
    apply paidOut_init
    intro y hy
    rcases x.hpre y hy with ⟨e, _⟩ | e
    · rw [hl] at e; cases e
    · exact ⟨_, _, e⟩
  unfold Balanced brought earned spent lost
  rw [own_eq, own_eq, hown, hgot, hpost, hpre]
  simp only [decide_eq_true_eq]
  generalize part (fun y => decide (y = a)) d s' = o'
  generalize (if (priceOf m S B).denom = d then share a x.pays else 0) = sh
  cases hsc : SellerCall m with
  | true =>
    rw [hsc, if_pos rfl] at hback
    have hp : priceOf m S B = B.limit := by unfold priceOf; rw [hsc]; rfl
    rw [buy_seller T.buy hsc] at hall ⊢
    rw [hp] at hout ⊢
    rw [hback] at hout ⊢
    simp only [paidOut] at hout ⊢
    cases hl : Lists m with
    | true =>
      obtain ⟨_, hk⟩ := lists_sells hl
      rw [hk] at hacc ⊢
      simp only [Bool.false_eq_true, if_false] at hacc
      have : paidOut d x.pre = amountOf d funds := by omega
      rw [this]
      by_cases h1 : sender = a <;> by_cases h2 : s.config.feeManager = a <;> by_cases h3 : B.who = a <;> simp [h1, h2, h3] <;> omega
    | false =>
      have := hpre0 hl
      rw [this] at hout ⊢
      have hf : amountOf d funds = if Keeps m = true then amountOf d funds else 0 := by omega
      cases hk : Keeps m with
      | true => by_cases h1 : sender = a <;> by_cases h3 : B.who = a <;> simp [h1, h3] <;> omega
      | false =>
        rw [hk] at hf
        simp only [Bool.false_eq_true, if_false] at hf
        rw [hf]
        by_cases h1 : sender = a <;> by_cases h3 : B.who = a <;> simp [h1, h3] <;> omega
  | false =>
    rw [hsc] at hback
    have hback := hback d
    have hl : Lists m = false := by
      cases h : Lists m with
      | false => rfl
      | true => rw [(lists_sells h).1] at hsc; cases hsc
    rw [hpre0 hl, keeps_buyer T.buy hsc, hl, buy_buyer T.buy hsc]
    by_cases h1 : sender = a <;> simp [h1] <;> omega

theorem sentTo_refund (a : Addr) (d : Denom) (sender : Addr) (left : List Coin) :
    sentTo a d (refund sender left []) = if sender = a then amountOf d left else 0 := by
  obtain ⟨post, e, h1, h2⟩ := refund_eq sender left []
  rw [e, List.nil_append, sentTo_only (to := sender) (fun y hy => .inl (h1 y hy)), h2 d]

/-- Calls that do not trade. -/
theorem quiet_books {ctx : Ctx} {sender : Addr} {funds : List Coin} {m : Exec} {s s' : State} {msgs : List Msg}
    (hw : WF p s) (hw' : WF p s') (e : Eff p ctx sender funds s m s' msgs) (hno : ¬ Trades m s' me msgs)
    (a : Addr) (d : Denom) : Balanced a d s sender funds m s' msgs none := by
  have nonft : ∀ {a : Ask} {mb : MatchingBid} {abb : Bool} (x : SaleParts p ctx a s.config mb abb) (pre : List Msg) (left : List Coin),
      msgs = refund sender left (pre ++ x.msgs) → (∀ id, m ≠ .removeAsk id) →
      (∀ c t d, m = .setAsk c t d → s'.asks.get? (askId p c t) = none) → False := by
    intro a mb abb x pre left h n1 n2
    obtain ⟨pre', e1, _⟩ := x_split x
    obtain ⟨post, e2, _⟩ := refund_eq sender left (pre ++ x.msgs)
    refine hno ⟨a.collection, a.tokenId, mb.recipient, by rw [h, e2, e1]; simp, n1, ?_⟩
    rintro ⟨_, id, a', det, em, ha, hc, ht, hd⟩
    have hid := (hw'.ask ha).2.1
    rw [hc, ht] at hid
    have := n2 _ _ _ em
    rw [← hid, ha] at this
    cases this
  have r0 : ∀ ms, refund sender [] ms = ms := fun ms => rfl
  unfold Balanced brought earned spent lost
  simp only [own_eq, part]
  cases e with
  | config => by_cases h : sender = a <;> simp [h, Lists, Keeps, sentTo]
  | denom => by_cases h : sender = a <;> simp [h, Lists, Keeps, sentTo]
  | setFee => by_cases h : sender = a <;> simp [h, Lists, Keeps, sentTo]
  | rmFee => by_cases h : sender = a <;> simp [h, Lists, Keeps, sentTo]
  | restAsk coll tok det pay hv hd hown htr hpr hf =>
    subst hf
    by_cases h : sender = a <;> by_cases h2 : s.config.feeManager = a <;> simp [h, h2, Lists, Keeps, sentTo]
  | sellAsk m coll tok d pay mb hm hv hd hown htr hpr hf hpos hfee hmb x =>
    refine (nonft x [.send s.config.feeManager [pay]] [] (r0 _).symm ?_ ?_).elim
    · rcases hm with rfl | rfl <;> simp
    · rcases hm with rfl | rfl
      · intro c t d e; cases e; rw [afterSale_asks]; simp [Ask.new]
      · simp
  | updAsk id det b hf => subst hf; simp [Lists, Keeps, sentTo, amountOf]
  | updSell id d a mb hf hd ha hcr hpr hmb x => exact (nonft x [] [] (r0 _).symm (by simp) (by simp)).elim
  | rmAsk id b hf ha hcr => subst hf; simp [Lists, Keeps, sentTo, amountOf]
  | accAsk id d a fn left hd hn ha hpr hl x => exact (nonft x [] left rfl (by simp) (by simp)).elim
  | restBid coll tok det fn left hv hd htr hpr hn hm hl hnew =>
    have h1 := (nbNormalize_ok hn).1 d
    have h2 := (nbSub_ok hl).1 d
    have h3 := AMap.sum_insert_new (Bid.new p sender coll tok det ctx.height (nextNonce s))
      (fun b => if decide (b.creator = a) = true then b.details.price.inDenom d else 0) hnew
    have h4 : (Bid.new p sender coll tok det ctx.height (nextNonce s)).details = det := rfl
    have h5 : (Bid.new p sender coll tok det ctx.height (nextNonce s)).creator = sender := rfl
    rw [sentTo_refund]
    simp only [h4, h5, decide_eq_true_eq] at h3 ⊢
    rw [h3]
    by_cases h : sender = a <;> simp [h, Lists, Keeps] <;> omega
  | buyBid m coll tok d fn left a hm hv hd htr hpr hn ha hl x => exact (nonft x [] left rfl (by rcases hm with rfl | rfl <;> simp) (by rcases hm with rfl | rfl <;> simp)).elim
  | updBid id det b fn fa left hd hb hcr hpr hn hadd hm hl =>
    have h1 := (nbNormalize_ok hn).1 d
    have h2 := (nbAdd_ok hadd).1 d
    have h3 := (nbSub_ok hl).1 d
    have h4 := AMap.sum_insert_old { b with details := det }
      (fun b => if decide (b.creator = a) = true then b.details.price.inDenom d else 0) hb
    have h5 := (hw.bid hb).1
    rw [← h5] at h4
    rw [sentTo_refund]
    simp only [decide_eq_true_eq, ← hcr] at h4 ⊢
    by_cases h : sender = a <;> simp [h, Lists, Keeps] at h4 ⊢ <;> omega
  | updBuy id d b a fn fa left hd hb hcr hpr hn hadd ha hl x => exact (nonft x [] left rfl (by simp) (by simp)).elim
  | rmBid id b hf hb hcr =>
    subst hf
    have h4 := AMap.sum_erase_of_get? (fun b => if decide (b.creator = a) = true then b.details.price.inDenom d else 0) hb
    rw [(hw.bid hb).1]
    simp only [decide_eq_true_eq, ← hcr] at h4 ⊢
    by_cases h : sender = a <;> simp [h, Lists, Keeps, sentTo, amountOf] at h4 ⊢ <;> omega
  | accBid id d b a hd hb hpr ha x => exact (nonft x [] [] (r0 _).symm (by simp) (by simp)).elim
  | restCBid coll det fn left hv hd htr hpr hn hm hl hnew =>
    have h1 := (nbNormalize_ok hn).1 d
    have h2 := (nbSub_ok hl).1 d
    have h3 := AMap.sum_insert_new (CBid.new p sender coll det ctx.height (nextNonce s))
      (fun b => if decide (b.creator = a) = true then b.details.price.inDenom d else 0) hnew
    have h4 : (CBid.new p sender coll det ctx.height (nextNonce s)).details = det := rfl
    have h5 : (CBid.new p sender coll det ctx.height (nextNonce s)).creator = sender := rfl
    rw [sentTo_refund]
    simp only [h4, h5, decide_eq_true_eq] at h3 ⊢
    rw [h3]
    by_cases h : sender = a <;> simp [h, Lists, Keeps] <;> omega
  | buyCBid m coll d fn left a hm hv hd htr hpr hn ha hl x => exact (nonft x [] left rfl (by rcases hm with rfl | rfl <;> simp) (by rcases hm with rfl | rfl <;> simp)).elim
  | updCBid id det b fn fa left hd hb hcr hpr hn hadd hm hl =>
    have h1 := (nbNormalize_ok hn).1 d
    have h2 := (nbAdd_ok hadd).1 d
    have h3 := (nbSub_ok hl).1 d
    have h4 := AMap.sum_insert_old { b with details := det }
      (fun b => if decide (b.creator = a) = true then b.details.price.inDenom d else 0) hb
    have h5 := (hw.cbid hb).1
    rw [← h5] at h4
    rw [sentTo_refund]
    simp only [decide_eq_true_eq, ← hcr] at h4 ⊢
    by_cases h : sender = a <;> simp [h, Lists, Keeps] at h4 ⊢ <;> omega
  | updCBuy id d b a fn fa left hd hb hcr hpr hn hadd ha hl x => exact (nonft x [] left rfl (by simp) (by simp)).elim
  | rmCBid id b hf hb hcr =>
    subst hf
    have h4 := AMap.sum_erase_of_get? (fun b => if decide (b.creator = a) = true then b.details.price.inDenom d else 0) hb
    rw [(hw.cbid hb).1]
    simp only [decide_eq_true_eq, ← hcr] at h4 ⊢
    by_cases h : sender = a <;> simp [h, Lists, Keeps, sentTo, amountOf] at h4 ⊢ <;> omega
  | accCBid id tok d b a hd hb hpr ha x => exact (nonft x [] [] (r0 _).symm (by simp) (by simp)).elim

/-- The books of every account balance in every call. -/
theorem C125_call (hlim : 1 ≤ p.maxLimit) (hinj : HashInj p) {ctx : Ctx} {sender : Addr} {funds : List Coin}
    {m : Exec} {s s' : State} {msgs : List Msg} (hr : Reach p me NoWrap s) (hg : NoWrap s) (hself : ctx.self = me)
    (hx : execute p ctx sender funds m s = .ok (s', msgs)) :
    ∃ D, Billed me ctx.q s sender m s' msgs D ∧ ∀ a d, Balanced a d s sender funds m s' msgs D := by
  by_cases ht : Trades m s' me msgs
  · obtain ⟨S, B, T⟩ := trade_main hr hlim hself hx ht
    obtain ⟨x⟩ := T.sale
    exact ⟨some ⟨S, B, priceOf m S B, x.pays⟩, ⟨ht, T.sell, T.buy, rfl, x.hpays⟩, trade_books hlim hinj hr hg hx T x⟩
  · have hw := Spec.Reach.wf hr
    exact ⟨none, ht, quiet_books hw (hw.eff (execute_eff hx)) (execute_eff hx) ht⟩

/-! ### Whole histories -/

/-- A call as it happened: state before, caller, coins, message, state after, messages sent. -/
structure Spec.Act where
  q : Queries
  before : State
  sender : Addr
  funds : List Coin
  msg : Exec
  after : State
  sent : List Msg

/-- The calls of a history, latest first. -/
inductive Spec.Diary (p : Params) (self : Addr) (s0 : State) : List Act → State → Prop where
  | nil : Diary p self s0 [] s0
  | call {l : List Act} {s s' : State} {ctx : Ctx} {sender : Addr} {funds : List Coin} {m : Exec} {msgs : List Msg}
      (hd : Diary p self s0 l s) (hself : ctx.self = self) (hne : sender ≠ self)
      (h : execute p ctx sender funds m s = .ok (s', msgs)) :
      Diary p self s0 (⟨ctx.q, s, sender, funds, m, s', msgs⟩ :: l) s'

/-- Every call of the diary with its trade. -/
inductive Spec.Books (self : Addr) : List (Act × Option Deal) → Prop where
  | nil : Books self []
  | cons {x : Act} {D : Option Deal} {l : List (Act × Option Deal)}
      (h : Billed self x.q x.before x.sender x.msg x.after x.sent D) (hl : Books self l) : Books self ((x, D) :: l)

/-- Total of something over a history. -/
def Spec.over (f : Act → Option Deal → Nat) (l : List (Act × Option Deal)) : Nat := (l.map (fun x => f x.1 x.2)).sum

def Spec.putAll (a : Addr) (d : Denom) := over (fun x _ => brought a d x.sender x.funds)
def Spec.gotAll (a : Addr) (d : Denom) := over (fun x _ => sentTo a d x.sent)
def Spec.earnedAll (a : Addr) (d : Denom) := over (fun x D => earned a d x.before x.funds x.msg D)
def Spec.spentAll (a : Addr) (d : Denom) := over (fun x D => spent a d x.sender x.funds x.msg D)
def Spec.lostAll (a : Addr) (d : Denom) := over (fun x _ => lost a d x.sender x.funds x.msg)

theorem diary_reach {s0 s : State} {l : List Act} {c : Config} (hi : instantiate p c = .ok s0)
    (h : Diary p me s0 l s) (hn : l.length + 1 < 2^64) : Reach p me NoWrap s ∧ s.nonce ≤ l.length := by
  induction h with
  | nil =>
    refine ⟨.init hi, ?_⟩
    unfold instantiate at hi
    simp only [bind_ok] at hi
    obtain ⟨_, _, _, _, hi⟩ := hi
    exact Nat.le_of_eq (congrArg State.nonce (Except.ok.inj hi)).symm
  | call hd hself hne h ih =>
    rw [List.length_cons] at hn ⊢
    obtain ⟨hr, hno⟩ := ih (by omega)
    have := nonce_le h
    exact ⟨.call hr (by unfold NoWrap; omega) hself hne h, by omega⟩

/-- Over every history of fewer than 2^64 - 1 calls, every account has put in and earned exactly what is in its open
bids, what it was sent, what it spent and what it threw away. -/
theorem C125_history (hlim : 1 ≤ p.maxLimit) (hinj : HashInj p) {c : Config} {s0 s : State} {l : List Act}
    (hi : instantiate p c = .ok s0) (h : Diary p me s0 l s) (hn : l.length + 1 < 2^64) :
    ∃ b : List (Act × Option Deal), b.map Prod.fst = l ∧ Books me b ∧ ∀ a d,
      putAll a d b + earnedAll a d b = amountOf d (ownCoins a s) + gotAll a d b + spentAll a d b + lostAll a d b := by
  induction h with
  | nil =>
    refine ⟨[], rfl, .nil, fun a d => ?_⟩
    obtain ⟨_, e2, e3⟩ := init_empty hi
    simp [putAll, earnedAll, gotAll, spentAll, lostAll, over, ownCoins, e2, e3, AMap.vals, AMap.empty, amountOf]
  | @call l s s' ctx sender funds m msgs hd hself hne h ih =>
    rw [List.length_cons] at hn
    obtain ⟨b, h1, h2, h3⟩ := ih (by omega)
    obtain ⟨hr, hno⟩ := diary_reach hi hd (by omega)
    obtain ⟨D, h4, h5⟩ := C125_call hlim hinj hr (by unfold NoWrap; omega) hself h
    refine ⟨(⟨ctx.q, s, sender, funds, m, s', msgs⟩, D) :: b, by rw [List.map_cons, h1], .cons h4 h2, fun a d => ?_⟩
    have e1 := h3 a d
    have e2 := h5 a d
    unfold Balanced at e2
    simp only [putAll, earnedAll, gotAll, spentAll, lostAll, over, List.map_cons, List.sum_cons] at e1 ⊢
    omega

/-- The calls in which `a` has a part other than bidding: it lists, attaches coins to a call with no use for them, buys,
is paid, or collects the fees. -/
def Spec.Involved (a : Addr) (x : Act × Option Deal) : Prop :=
  ((Lists x.1.msg = true ∨ Keeps x.1.msg = true) ∧ (x.1.sender = a ∨ x.1.before.config.feeManager = a)) ∨
  ∃ D, x.2 = some D ∧ (D.buy.who = a ∨ ∃ n, (a, n) ∈ D.pays)

theorem share_zero {a : Addr} {pays : List (Addr × Nat)} (h : ∀ n, (a, n) ∉ pays) : share a pays = 0 := by
  unfold share
  have : pays.filter (fun x => decide (x.1 = a)) = [] := by
    rw [List.filter_eq_nil_iff]
    intro x hx
    simp only [decide_eq_true_eq]
    intro e
    exact h x.2 (e ▸ hx)
  rw [this]
  rfl

theorem idle_zero {a : Addr} {d : Denom} {x : Act × Option Deal} (h : ¬ Involved a x) :
    earned a d x.1.before x.1.funds x.1.msg x.2 = 0 ∧ spent a d x.1.sender x.1.funds x.1.msg x.2 = 0 ∧
    lost a d x.1.sender x.1.funds x.1.msg = 0 := by
  obtain ⟨x, D⟩ := x
  unfold Involved at h
  simp only [not_or, not_and, not_exists] at h
  obtain ⟨h1, h2⟩ := h
  have e1 : ¬ (Lists x.msg = true ∧ x.sender = a) := fun e => (h1 (.inl e.1)).1 e.2
  have e2 : ¬ (Lists x.msg = true ∧ x.before.config.feeManager = a) := fun e => (h1 (.inl e.1)).2 e.2
  have e3 : ¬ (Keeps x.msg = true ∧ x.sender = a) := fun e => (h1 (.inr e.1)).1 e.2
  unfold earned spent lost
  rw [if_neg e1, if_neg e2, if_neg e3]
  cases D with
  | none => exact ⟨rfl, rfl, rfl⟩
  | some D =>
    obtain ⟨h3, h4⟩ := h2 D rfl
    simp [if_neg h3, share_zero h4]

/-- Bidding is free: an account that did nothing but place, change and withdraw bids none of which was filled has in its
open bids and has been sent, together, exactly what it put in. -/
theorem C125_free (hlim : 1 ≤ p.maxLimit) (hinj : HashInj p) {c : Config} {s0 s : State} {l : List Act}
    (hi : instantiate p c = .ok s0) (h : Diary p me s0 l s) (hn : l.length + 1 < 2^64) :
    ∃ b : List (Act × Option Deal), b.map Prod.fst = l ∧ Books me b ∧ ∀ a, (∀ x ∈ b, ¬ Involved a x) → ∀ d,
      putAll a d b = amountOf d (ownCoins a s) + gotAll a d b := by
  obtain ⟨b, h1, h2, h3⟩ := C125_history hlim hinj hi h hn
  refine ⟨b, h1, h2, fun a ha d => ?_⟩
  have := h3 a d
  have z : earnedAll a d b = 0 ∧ spentAll a d b = 0 ∧ lostAll a d b = 0 := by
    clear h1 h2 h3 this
    induction b with
    | nil => exact ⟨rfl, rfl, rfl⟩
    | cons x b ih =>
      obtain ⟨i1, i2, i3⟩ := ih (fun y hy => ha y (List.mem_cons_of_mem _ hy))
      obtain ⟨j1, j2, j3⟩ := idle_zero (d := d) (ha x List.mem_cons_self)
      simp only [earnedAll, spentAll, lostAll, over, List.map_cons, List.sum_cons] at i1 i2 i3 ⊢
      omega
  omega

namespace Sample
/-- A call as an entry of the diary. -/
def act (c : Ctx) (sender : Addr) (funds : List Coin) (m : Exec) (s : State) : Act :=
  ⟨c.q, s, sender, funds, m, (run c sender funds m s).1, (run c sender funds m s).2⟩

theorem note {s0 s : State} {l : List Act} {c : Ctx} {sender : Addr} {funds : List Coin} {m : Exec}
    (hd : Diary P self s0 l s) (hself : c.self = self) (hne : sender ≠ self) (h : ok c sender funds m s = true) :
    Diary P self s0 (act c sender funds m s :: l) (run c sender funds m s).1 :=
  .call hd hself hne (run_eq h)

/-- alice lowers the price to 85, which sells to carol for 90 -/
def s5p : State := (run (ctx (some self)) alice [] (.updateAsk (askId P coll tok) (det 85)) s4).1

/-- The admin sets the listing fee, alice lists, bob bids, carol bids on the collection, alice lowers the price. -/
def diary : List Act :=
  [act (ctx (some self)) alice [] (.updateAsk (askId P coll tok) (det 85)) s4,
   act (ctx (some self)) carol [⟨ust, 95⟩] (.setCollectionBid coll (det 90)) s3,
   act (ctx (some self)) bob [⟨ust, 80⟩] (.setBid coll tok (det' 80 carol)) s2,
   act (ctx (some alice)) alice [⟨ust, 5⟩] (.setAsk coll tok (det 100)) s1,
   act (ctx none) admin [] (.setListingFee ⟨ust, 5⟩) s0]

theorem diary_ok : Diary P self s0 diary s5p := by
  have o1 : ok (ctx none) admin [] (.setListingFee ⟨ust, 5⟩) s0 = true := by decide +kernel
  have o2 : ok (ctx (some alice)) alice [⟨ust, 5⟩] (.setAsk coll tok (det 100)) s1 = true := by decide +kernel
  have o3 : ok (ctx (some self)) bob [⟨ust, 80⟩] (.setBid coll tok (det' 80 carol)) s2 = true := by decide +kernel
  have o4 : ok (ctx (some self)) carol [⟨ust, 95⟩] (.setCollectionBid coll (det 90)) s3 = true := by decide +kernel
  have o5 : ok (ctx (some self)) alice [] (.updateAsk (askId P coll tok) (det 85)) s4 = true := by decide +kernel
  exact note (note (note (note (note .nil rfl (by decide) o1) rfl (by decide) o2) rfl (by decide) o3) rfl (by decide) o4)
    rfl (by decide) o5

/-- What is in open bids and what was sent, for everybody involved. -/
example : [alice, bob, carol, feeMgr, artist].map (fun a => (amountOf ust (ownCoins a s5p),
    (diary.map (fun x => sentTo a ust x.sent)).sum)) = [(0, 83), (80, 0), (0, 5), (0, 7), (0, 5)] := by decide +kernel
example := C125_history (by decide) hashInj init0 diary_ok (by decide)
example := C125_free (by decide) hashInj init0 diary_ok (by decide)
end Sample

end
end Verif.V2

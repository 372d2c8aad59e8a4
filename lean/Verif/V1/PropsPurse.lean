/-
Marketplace v1: the money of a single account (C127).
-/
import Verif.V1.PropsFunds
import Verif.V1.PropsSale
import Verif.V1.PropsOrders

namespace Verif.V1
open Verif Spec

section
variable {p : Params} {me : Addr}

/-! ### Specification -/

/-- Prices of the open bids and collection bids of one account. -/
def Spec.own (a : Addr) (s : State) : Nat :=
  ((s.bids.vals.filter (fun b => decide (b.bidder = a))).map Bid.price).sum +
  ((s.cbids.vals.filter (fun b => decide (b.bidder = a))).map CBid.price).sum

/-- A call as it happened. -/
structure Spec.Act where
  q : Queries
  before : State
  sender : Addr
  funds : List Coin
  m : Exec
  after : State
  sent : List Msg

/-- The sale made by a call, if it hands over a token. -/
def Spec.Act.sale (x : Act) : Option Terms := if handed x.sent = [] then none else terms x.before x.sender x.m

/-- Stored rates are hundredths of a percent times 10^16. -/
def Spec.rated (x rate : Nat) : Nat := x * rate / 10^20

/-- What the seller's side is paid: the price without the royalty, rounded down, minus network fee and finder's fee. -/
def Spec.proceeds (q : Queries) (s : State) (T : Terms) : Nat :=
  T.price * (10^18 - royaltyOf q T.coll) / 10^18 - rated T.price s.params.tradingFee - T.found

/-- The account that the collection's royalty goes to. -/
def Spec.artistOf (q : Queries) (c : Addr) : Option Addr := (q.collInfo c).bind (fun i => i.royalty.map (fun r => r.recipient))

/-- What `a` is paid in a sale: as the seller's payee, as the finder, as the artist. -/
def Spec.cutOf (a : Addr) (q : Queries) (s : State) (T : Terms) : Nat :=
  (if T.payee = a then proceeds q s T else 0) +
  (if T.finder = some a then T.found else 0) +
  (if artistOf q T.coll = some a then T.price * royaltyOf q T.coll / 10^18 else 0)

/-- The stale bid removed by a call: bidder and price. -/
def Spec.removed (s : State) : Exec → Option (Addr × Nat)
  | .removeStaleBid c t b => (s.bids.get? (c, t, b)).map (fun x => (b, x.price))
  | .removeStaleCollectionBid c b => (s.cbids.get? (c, b)).map (fun x => (b, x.price))
  | _ => none

/-- The reward for removing it. -/
def Spec.reward (s : State) (n : Nat) : Nat := rated n s.params.bidRemovalReward

/-- The call lists a token. -/
def Spec.Asks : Exec → Bool
  | .setAsk .. => true
  | _ => false

/-- What `a` attaches to a call. -/
def Spec.brought (a : Addr) (x : Act) : Nat := if x.sender = a then amountOf ustars x.funds else 0

/-- What `a` is sent by a call. -/
def Spec.received (a : Addr) (x : Act) : Nat := sentTo a ustars x.sent

/-- What `a` pays for by a call: its own listing, what it buys, the removal of its stale bid. -/
def Spec.spent (a : Addr) (x : Act) : Nat :=
  (if Asks x.m = true ∧ x.sender = a then amountOf ustars x.funds else 0) +
  (match x.sale with
   | none => 0
   | some T => if T.buyer = a then T.price else 0) +
  match removed x.before x.m with
  | none => 0
  | some (b, n) => if b = a then reward x.before n else 0

/-- What `a` earns by a call: its part of a price, the reward for the removal of a stale bid. -/
def Spec.earned (a : Addr) (x : Act) : Nat :=
  (match x.sale with
   | none => 0
   | some T => cutOf a x.q x.before T) +
  match removed x.before x.m with
  | none => 0
  | some (_, n) => if x.sender = a then reward x.before n else 0

/-- What `a` had and brought and earned is what it has and received and spent. -/
def Spec.Balanced (a : Addr) (x : Act) : Prop :=
  own a x.before + brought a x + earned a x = own a x.after + received a x + spent a x

/-- The calls of a history, latest first; governance may come in between. -/
inductive Spec.Diary (p : Params) (self : Addr) (s0 : State) : List Act → State → Prop where
  | nil : Diary p self s0 [] s0
  | call {l : List Act} {s s' : State} {ctx : Ctx} {sender : Addr} {funds : List Coin} {m : Exec} {msgs : List Msg}
      (hd : Diary p self s0 l s) (hself : ctx.self = self) (hne : sender ≠ self)
      (h : execute p ctx sender funds m s = .ok (s', msgs)) :
      Diary p self s0 (⟨ctx.q, s, sender, funds, m, s', msgs⟩ :: l) s'
  | sudo {l : List Act} {s s' : State} {ctx : Ctx} {m : Sudo} {msgs : List Msg}
      (hd : Diary p self s0 l s) (hself : ctx.self = self) (h : V1.sudo p ctx m s = .ok (s', msgs)) :
      Diary p self s0 l s'

/-- Total over a history. -/
def Spec.over (f : Act → Nat) (l : List Act) : Nat := (l.map f).sum

/-! ### Lemmas -/

def bw (a : Addr) (b : Bid) : Nat := if b.bidder = a then b.price else 0
def cw (a : Addr) (b : CBid) : Nat := if b.bidder = a then b.price else 0

theorem filter_sum {α : Type} (P : α → Prop) [DecidablePred P] (f : α → Nat) : ∀ l : List α,
    ((l.filter (fun x => decide (P x))).map f).sum = (l.map (fun x => if P x then f x else 0)).sum
  | [] => rfl
  | x :: l => by
    have ih := filter_sum P f l
    rw [List.filter_cons]
    by_cases h : P x <;> simp [h, ih]

theorem own_eq (a : Addr) (s : State) : own a s = s.bids.sum (bw a) + s.cbids.sum (cw a) := by
  unfold own AMap.sum
  rw [filter_sum (fun b : Bid => b.bidder = a), filter_sum (fun b : CBid => b.bidder = a)]
  rfl

theorem st_append (a : Addr) (d : Denom) (x y : List Msg) : sentTo a d (x ++ y) = sentTo a d x + sentTo a d y := by
  induction x with
  | nil => simp [sentTo]
  | cons m x ih => cases m <;> simp only [List.cons_append, sentTo, ih]; omega

theorem st_coin (a b : Addr) (n : Nat) : sentTo a NATIVE [.send b [⟨NATIVE, n⟩]] = if b = a then n else 0 := by
  simp [sentTo, nat_coin, nat_native]

theorem st_refund (a b : Addr) (o : Option Nat) : sentTo a NATIVE (refund o b) = if b = a then o.getD 0 else 0 := by
  cases o with
  | none => simp [refund, sentTo]
  | some n => exact st_coin a b n

theorem bps_eq (x r : Nat) : x * r / ONE / 100 = rated x r := by
  unfold rated ONE; rw [Nat.div_div_eq_div_mul]

theorem st_paid {ctx : Ctx} {s : State} {T : Terms} {pay : List Msg} (a : Addr)
    (h : Paid ctx s T.coll T.price T.payee T.finder T.fee pay) : sentTo a NATIVE pay = cutOf a ctx.q s T := by
  have hfin : finFee T.price T.finder T.fee = T.found := finFee_share _ _ _
  have hnet : netFee s T.price = rated T.price s.params.tradingFee := bps_eq _ _
  have hfm : sentTo a NATIVE (finderMsg T.finder T.found) = if T.finder = some a then T.found else 0 := by
    cases hf : T.finder with
    | none => simp [finderMsg, sentTo]
    | some f =>
      by_cases hz : 0 < T.found
      · simp only [finderMsg, if_pos hz, st_coin, Option.some.injEq]
      · have : T.found = 0 := by omega
        simp [finderMsg, this, sentTo]
  cases h with
  | royalty info roy hinfo hroy hpos hone hfit htot =>
    have h1 : royaltyOf ctx.q T.coll = roy.share := by simp [royaltyOf, hinfo, hroy]
    have h2 : artistOf ctx.q T.coll = some roy.recipient := by simp [artistOf, hinfo, hroy]
    rw [hnet, hfin]
    unfold cutOf proceeds
    rw [h1, h2]
    simp only [List.cons_append, sentTo, st_append, hfm, nat_coin, nat_native, Option.some.injEq]
    simp only [ONE, Nat.add_zero]
    omega
  | plain info hinfo hroy htot =>
    have h1 : royaltyOf ctx.q T.coll = 0 := by
      unfold royaltyOf
      rw [hinfo]
      cases hi : info.royalty with
      | none => simp [hi]
      | some r => simp [hi, hroy r hi]
    rw [hnet, hfin]
    unfold cutOf proceeds
    rw [h1, Nat.sub_zero, Nat.mul_div_cancel _ (by decide : 0 < 10^18)]
    simp only [List.cons_append, sentTo, st_append, hfm, nat_coin, nat_native, Nat.mul_zero, Nat.zero_div, ite_self, Nat.add_zero]
    omega

theorem st_sale {ctx : Ctx} {s : State} {sender : Addr} {m : Exec} {msgs : List Msg} {T : Terms}
    (sh : SaleShape ctx s sender m msgs T) (a : Addr) : sentTo a NATIVE msgs =
      (if sender = a then ((oldBid s sender m).map Bid.price).getD 0 else 0) + cutOf a ctx.q s T := by
  refine (congrArg (sentTo a NATIVE) sh.msgs).trans ?_
  simp only [st_append, st_refund, st_paid a sh.paid, sh.all.sentTo, sentTo, Nat.add_zero]

theorem bw_erase {s : State} (hw : WF p me s) (a : Addr) (c : Addr) (t : Nat) (b : Addr) :
    s.bids.sum (bw a) = (s.bids.erase (c, t, b)).sum (bw a) +
      (if b = a then ((s.bids.get? (c, t, b)).map Bid.price).getD 0 else 0) := by
  have h := AMap.sum_erase s.bids (c, t, b) (bw a)
  cases hb : s.bids.get? (c, t, b) with
  | none => rw [hb] at h; simp at h ⊢; omega
  | some x =>
    have hk := (hw.bids _ _ hb).key
    simp only [Prod.mk.injEq] at hk
    rw [hb] at h
    simp only [Option.map_some, Option.getD_some, bw, hk.2.2] at h ⊢
    exact h.symm

theorem cw_erase {s : State} (hw : WF p me s) (a : Addr) (c : Addr) (b : Addr) :
    s.cbids.sum (cw a) = (s.cbids.erase (c, b)).sum (cw a) +
      (if b = a then ((s.cbids.get? (c, b)).map CBid.price).getD 0 else 0) := by
  have h := AMap.sum_erase s.cbids (c, b) (cw a)
  cases hb : s.cbids.get? (c, b) with
  | none => rw [hb] at h; simp at h ⊢; omega
  | some x =>
    have hk := (hw.cbids _ _ hb).key
    simp only [Prod.mk.injEq] at hk
    rw [hb] at h
    simp only [Option.map_some, Option.getD_some, cw, hk.2] at h ⊢
    exact h.symm

theorem st_bidHook (a : Addr) (d : Denom) (s : State) (b : Bid) (x : HookAction) : sentTo a d (bidHook s b x) = 0 :=
  (allHooks_map _ _).sentTo
theorem st_cbidHook (a : Addr) (d : Denom) (s : State) (b : CBid) (x : HookAction) : sentTo a d (cbidHook s b x) = 0 :=
  (allHooks_map _ _).sentTo
theorem st_askHook (a : Addr) (d : Denom) (s : State) (b : Ask) (x : HookAction) : sentTo a d (askHook s b x) = 0 :=
  (allHooks_map _ _).sentTo

/-! ### C127 -/

/-- The books of every account balance in every call. -/
theorem C127_call {ctx : Ctx} {sender : Addr} {funds : List Coin} {m : Exec} {s s' : State} {msgs : List Msg}
    (hr : Reach p me s) (h : execute p ctx sender funds m s = .ok (s', msgs)) (a : Addr) :
    Balanced a ⟨ctx.q, s, sender, funds, m, s', msgs⟩ := by
  have hw := hr.wf
  have e := execute_eff h
  have quiet : ∀ {q s sender funds m s'} {msgs : List Msg}, handed msgs = [] → (Act.mk q s sender funds m s' msgs).sale = none := by
    intro _ _ _ _ _ _ _ h; unfold Act.sale; rw [if_pos h]
  unfold Balanced brought received spent earned
  simp only
  rw [ustars_eq, own_eq, own_eq]
  by_cases hh : handed msgs = []
  · rw [quiet hh]
    cases e with
    | setAsk ty coll tok price recipient reserveFor fee expires paid =>
      have : sentTo a NATIVE ((if 0 < paid then [Msg.fairBurn [⟨NATIVE, paid⟩]] else []) ++
          askHook s ⟨ty, coll, tok, sender, price.amount, recipient, reserveFor, fee, expires, true⟩ .create) = 0 := by
        rw [st_append, st_askHook]; split <;> rfl
      rw [this]
      simp [removed, Asks]
    | removeAsk coll tok ask hv hf => rw [hf, st_askHook]; simp [removed, Asks, amountOf]
    | updatePrice coll tok price ask hv hf => rw [hf, st_askHook]; simp [removed, Asks, amountOf]
    | bidSaved m b price hm hv hfinder hfee hfunds =>
      have h1 := bw_erase hw a b.coll b.tok sender
      have h2 := AMap.sum_insert_new (m := s.bids.erase (b.coll, b.tok, sender)) (⟨b.coll, b.tok, sender, price, b.fee, b.expires⟩ : Bid)
        (bw a) (AMap.get?_erase_self _ _)
      have h3 : Asks m = false ∧ removed s m = none := by
        cases m <;> simp [bidArgs] at hm <;> exact ⟨rfl, rfl⟩
      rw [st_append, st_bidHook, st_refund, hfunds, h2, h3.1, h3.2, nat_coin, nat_native]
      simp [bw]
      omega
    | bought m b price ask sale hm hv hfinder hfee hfunds hpos hmin ha hlive hact hres hty hprice hown hsale =>
      exfalso
      subst hprice
      obtain ⟨sh⟩ := bought_shape hw hm ha hsale
      rw [sh.handed] at hh; cases hh
    | removeBid coll tok bid hv hf hb =>
      have h1 := bw_erase hw a coll tok sender
      have hk := (hw.bids _ _ hb).key
      simp only [Prod.mk.injEq] at hk
      rw [hb] at h1
      rw [hf]
      simp only [sentTo, st_bidHook, hk.2.2, nat_coin, nat_native]
      simp [removed, Asks, amountOf] at h1 ⊢
      omega
    | acceptBid coll tok bidder finder bid sale hv hf hown htr hb hlive hsale =>
      exfalso
      obtain ⟨pay, h1, rfl⟩ := hsale.shape
      simp [handed_append, handed] at hh
    | rejectBid coll tok bidder bid hv hf hown hb =>
      have h1 := bw_erase hw a coll tok bidder
      rw [hb] at h1
      rw [hf]
      simp only [sentTo, st_bidHook, nat_coin, nat_native]
      simp [removed, Asks, amountOf] at h1 ⊢
      omega
    | setCBid coll expires fee price hv hfunds =>
      have h1 := AMap.sum_insert s.cbids (coll, sender) (⟨coll, sender, price, fee, expires⟩ : CBid) (cw a)
      have h2 := AMap.sum_erase s.cbids (coll, sender) (cw a)
      rw [st_append, st_cbidHook, hfunds, nat_coin, nat_native]
      cases hb : s.cbids.get? (coll, sender) with
      | none =>
        have h2 := AMap.sum_insert_new (⟨coll, sender, price, fee, expires⟩ : CBid) (cw a) hb
        rw [h2]
        simp [removed, Asks, sentTo, cw]
        omega
      | some b =>
        have hk := (hw.cbids _ _ hb).key
        simp only [Prod.mk.injEq] at hk
        have h2 := AMap.sum_insert_old (⟨coll, sender, price, fee, expires⟩ : CBid) (cw a) hb
        simp only [cw, hk.2] at h2
        simp only [st_coin, hk.2]
        simp [removed, Asks] at h2 ⊢
        omega
    | removeCBid coll bid hv hf hb =>
      have h1 := cw_erase hw a coll sender
      have hk := (hw.cbids _ _ hb).key
      simp only [Prod.mk.injEq] at hk
      rw [hb] at h1
      rw [hf]
      simp only [sentTo, st_cbidHook, hk.2, nat_coin, nat_native]
      simp [removed, Asks, amountOf] at h1 ⊢
      omega
    | acceptCBid coll tok bidder finder bid sale hv hf hown htr hb hlive hsale =>
      exfalso
      obtain ⟨pay, h1, rfl⟩ := hsale.shape
      simp [handed_append, handed] at hh
    | syncAsk coll tok ask hv hf => rw [hf, st_askHook]; simp [removed, Asks, amountOf]
    | staleAsk coll tok ask hv hf => rw [hf, st_askHook]; simp [removed, Asks, amountOf]
    | staleBid coll tok bidder bid n hv hf hop hb hdur hst hle =>
      have h1 := bw_erase hw a coll tok bidder
      have hk := (hw.bids _ _ hb).key
      simp only [Prod.mk.injEq] at hk
      rw [hb] at h1
      rw [bps_eq] at hle
      rw [hf, bps_eq]
      simp only [sentTo, st_bidHook, hk.2.2, nat_coin, nat_native, removed, hb, Option.map_some, reward]
      simp only [Option.map_some, Option.getD_some] at h1
      by_cases e1 : bidder = a <;> by_cases e2 : sender = a <;> simp [Asks, amountOf, e1, e2] at h1 ⊢ <;> omega
    | staleCBid coll bidder bid n hv hf hop hb hdur hst hle =>
      have h1 := cw_erase hw a coll bidder
      have hk := (hw.cbids _ _ hb).key
      simp only [Prod.mk.injEq] at hk
      rw [hb] at h1
      rw [bps_eq] at hle
      rw [hf, bps_eq]
      simp only [sentTo, st_cbidHook, hk.2, nat_coin, nat_native, removed, hb, Option.map_some, reward]
      simp only [Option.map_some, Option.getD_some] at h1
      by_cases e1 : bidder = a <;> by_cases e2 : sender = a <;> simp [Asks, amountOf, e1, e2] at h1 ⊢ <;> omega
  · obtain ⟨T, ⟨sh⟩⟩ := sale_shape hw e hh
    have hs : (Act.mk ctx.q s sender funds m s' msgs).sale = some T := by
      unfold Act.sale; rw [if_neg hh]; exact sh.terms
    rw [hs, st_sale sh a]
    have ht := sh.terms
    have hhe := sh.handed
    cases e with
    | bought m b price ask sale hm hv hfinder hfee hfunds hpos hmin ha hlive hact hres hty hprice hown hsale =>
      have h1 := bw_erase hw a b.coll b.tok sender
      have h3 : Asks m = false ∧ removed s m = none := by
        cases m <;> simp [bidArgs] at hm <;> exact ⟨rfl, rfl⟩
      rw [bidArgs_terms hm, listed, ha] at ht
      simp only [Option.map_some, Option.some.injEq] at ht
      have e1 : T.buyer = sender := by rw [← ht]
      have e2 : T.price = price := by rw [← ht]; exact hprice
      rw [bidArgs_oldBid hm, hfunds, h3.1, h3.2, nat_coin, nat_native]
      simp [e1, e2]
      omega
    | acceptBid coll tok bidder finder bid sale hv hf hown htr hb hlive hsale =>
      have h1 := bw_erase hw a coll tok bidder
      rw [hb] at h1
      simp only [terms, hb, Option.map_some, Option.some.injEq] at ht
      have e1 : T.buyer = bidder := by rw [← ht]
      have e2 : T.price = bid.price := by rw [← ht]
      rw [hf]
      simp [removed, Asks, amountOf, oldBid, e1, e2] at h1 ⊢
      omega
    | acceptCBid coll tok bidder finder bid sale hv hf hown htr hb hlive hsale =>
      have h1 := cw_erase hw a coll bidder
      rw [hb] at h1
      simp only [terms, hb, Option.map_some, Option.some.injEq] at ht
      have e1 : T.buyer = bidder := by rw [← ht]
      have e2 : T.price = bid.price := by rw [← ht]
      rw [hf]
      simp [removed, Asks, amountOf, oldBid, e1, e2] at h1 ⊢
      omega
    | bidSaved m b price hm hv hfinder hfee hfunds hpos hmin hexp hask hno =>
      exact absurd (by rw [handed_append, (refund_pay _ _).handed]; exact handed_hooks _ _) hh
    | setAsk => simp [terms] at ht
    | removeAsk => simp [terms] at ht
    | updatePrice => simp [terms] at ht
    | removeBid => simp [terms] at ht
    | rejectBid => simp [terms] at ht
    | setCBid => simp [terms] at ht
    | removeCBid => simp [terms] at ht
    | syncAsk => simp [terms] at ht
    | staleAsk => simp [terms] at ht
    | staleBid => simp [terms] at ht
    | staleCBid => simp [terms] at ht

theorem diary_reach {i : Init} {s0 s : State} {l : List Act} (hi : instantiate p i = .ok s0) (h : Diary p me s0 l s) :
    Reach p me s := by
  induction h with
  | nil => exact ⟨i, _, hi, .refl _⟩
  | call _ hself hne h ih => exact ih.step (.call hself hne h)
  | sudo _ hself h ih => exact ih.step (.sudo hself h)

/-- Over every history, every account has brought and earned exactly what is in its open bids, what it received and what it
spent. -/
theorem C127_history {i : Init} {s0 s : State} {l : List Act} (hi : instantiate p i = .ok s0) (h : Diary p me s0 l s) (a : Addr) :
    over (brought a) l + over (earned a) l = own a s + over (received a) l + over (spent a) l := by
  induction h with
  | nil =>
    obtain ⟨_, e2, e3⟩ := init_empty hi
    simp [over, own, e2, e3, AMap.vals, AMap.empty]
  | call hd hself hne h ih =>
    have h1 := C127_call (diary_reach hi hd) h a
    unfold Balanced at h1
    simp only [over, List.map_cons, List.sum_cons] at ih h1 ⊢
    omega
  | @sudo l s s' ctx m msgs hd hself h ih =>
    obtain ⟨e, _⟩ := sudo_eff (ctx := ctx) h
    obtain ⟨_, e2, e3, _⟩ := e.orders
    have : own a s' = own a s := by unfold own; rw [e2, e3]
    omega

/-- The account takes no part in the business of a call: it neither lists nor buys nor sells nor finds nor has its bid removed
as stale nor removes one. -/
def Spec.Idle (a : Addr) (x : Act) : Prop :=
  ¬ (Asks x.m = true ∧ x.sender = a) ∧
  (∀ T, x.sale = some T → T.buyer ≠ a ∧ T.payee ≠ a ∧ T.finder ≠ some a ∧ artistOf x.q T.coll ≠ some a) ∧
  (∀ b n, removed x.before x.m = some (b, n) → b ≠ a ∧ x.sender ≠ a)

/-- Bidding is free, up to the removal of stale bids: an account that did nothing but bid and withdraw, and none of whose bids
was accepted or removed as stale, has everything back or in its open bids. -/
theorem C127_free {i : Init} {s0 s : State} {l : List Act} (hi : instantiate p i = .ok s0) (h : Diary p me s0 l s) {a : Addr}
    (hn : ∀ x ∈ l, Idle a x) : over (brought a) l = own a s + over (received a) l := by
  have h1 := C127_history hi h a
  have z : over (earned a) l = 0 ∧ over (spent a) l = 0 := by
    clear h h1
    induction l with
    | nil => exact ⟨rfl, rfl⟩
    | cons x l ih =>
      obtain ⟨i1, i2⟩ := ih (fun y hy => hn y (List.mem_cons_of_mem _ hy))
      obtain ⟨j1, j2, j3⟩ := hn x List.mem_cons_self
      have k1 : earned a x = 0 := by
        unfold earned
        cases hs : x.sale with
        | none =>
          cases hm : removed x.before x.m with
          | none => rfl
          | some y => simp [(j3 y.1 y.2 hm).2]
        | some T =>
          obtain ⟨_, b2, b3, b4⟩ := j2 T hs
          cases hm : removed x.before x.m with
          | none => simp [cutOf, b2, b3, b4]
          | some y => simp [cutOf, b2, b3, b4, (j3 y.1 y.2 hm).2]
      have k2 : spent a x = 0 := by
        unfold spent
        rw [if_neg j1]
        cases hs : x.sale with
        | none =>
          cases hm : removed x.before x.m with
          | none => rfl
          | some y => simp [(j3 y.1 y.2 hm).1]
        | some T =>
          cases hm : removed x.before x.m with
          | none => simp [(j2 T hs).1]
          | some y => simp [(j2 T hs).1, (j3 y.1 y.2 hm).1]
      simp only [over, List.map_cons, List.sum_cons] at i1 i2 ⊢
      omega
  omega

/-- No call takes or sends coins of any other denom. -/
theorem C127_other {ctx : Ctx} {sender : Addr} {funds : List Coin} {m : Exec} {s s' : State} {msgs : List Msg}
    (h : execute p ctx sender funds m s = .ok (s', msgs)) {d : Denom} (hd : d ≠ ustars) (a : Addr) :
    amountOf d funds = 0 ∧ sentTo a d msgs = 0 := by
  obtain ⟨_, _, _, _, h4⟩ := C93_accounting h
  have le : ∀ ms : List Msg, sentTo a d ms ≤ paidOut d ms := by
    intro ms
    induction ms with
    | nil => exact Nat.le_refl _
    | cons m ms ih => cases m <;> simp only [sentTo, paidOut] <;> (try split) <;> omega
  have := le msgs
  obtain ⟨h5, h6⟩ := h4 d hd
  omega

namespace Sample
def noteAct (c : Ctx) (sender : Addr) (funds : List Coin) (m : Exec) (s : State) : Act :=
  ⟨c.q, s, sender, funds, m, (run c sender funds m s).1, (run c sender funds m s).2⟩

theorem note {s0 s : State} {l : List Act} {c : Ctx} {sender : Addr} {funds : List Coin} {m : Exec}
    (hd : Diary P self s0 l s) (hself : c.self = self) (hne : sender ≠ self) (h : ok c sender funds m s = true) :
    Diary P self s0 (noteAct c sender funds m s :: l) (run c sender funds m s).1 :=
  .call hd hself hne (run_eq h)

/-- alice lists for 101, bob bids 60, carol bids 50 for the collection, bob raises to 70, carol buys, carol's collection bid is removed
as stale -/
def diary : List Act :=
  [noteAct (ctx 3200) oper [] (.removeStaleCollectionBid coll carol) s7,
   noteAct (ctx 1002) carol (us 101) buyMsg s6,
   noteAct (ctx 1001) bob (us 70) bidMsg s5,
   noteAct (ctx 1000) carol (us 50) (.setCollectionBid coll (3000 * NSs) none) s4,
   noteAct (ctx 1000) bob (us 60) bidMsg s3,
   noteAct (ctx 1000) alice (us 3) askMsg s2]
def s8p : State := (run (ctx 3200) oper [] (.removeStaleCollectionBid coll carol) s7).1

theorem diary_ok : Diary P self s0 diary s8p := by
  have q1 : sok (ctx 1000) (.addAskHook hk) s0 = true := by decide +kernel
  have d1 : Diary P self s0 [] s1 := .sudo (ctx := ctx 1000) .nil rfl (srun_eq q1)
  have q2 : sok (ctx 1000) (.addBidHook hk) s1 = true := by decide +kernel
  have d2 : Diary P self s0 [] s2 := .sudo (ctx := ctx 1000) d1 rfl (srun_eq q2)
  have o1 : ok (ctx 1000) alice (us 3) askMsg s2 = true := by decide +kernel
  have o2 : ok (ctx 1000) bob (us 60) bidMsg s3 = true := by decide +kernel
  have o3 : ok (ctx 1000) carol (us 50) (.setCollectionBid coll (3000 * NSs) none) s4 = true := by decide +kernel
  have o4 : ok (ctx 1001) bob (us 70) bidMsg s5 = true := by decide +kernel
  have o5 : ok (ctx 1002) carol (us 101) buyMsg s6 = true := by decide +kernel
  have o6 : ok (ctx 3200) oper [] (.removeStaleCollectionBid coll carol) s7 = true := by decide +kernel
  exact note (note (note (note (note (note d2 rfl (by decide) o1) rfl (by decide) o2) rfl (by decide) o3) rfl (by decide) o4)
    rfl (by decide) o5) rfl (by decide) o6

/-- brought, earned, open bids, received, spent: alice paid 3 for the listing and earned 88, bob has 70 in a bid, carol spent 101
and a reward of 2, the operator earned 5 as finder and 2 as reward -/
example : [alice, bob, carol, oper, artist].map (fun a => (over (brought a) diary, over (earned a) diary, own a s8p,
    over (received a) diary, over (spent a) diary)) =
    [(3, 88, 0, 88, 3), (130, 0, 70, 60, 0), (151, 0, 0, 48, 103), (0, 7, 0, 7, 0), (0, 5, 0, 5, 0)] := by decide +kernel
example := C127_history init0 diary_ok carol
example := C127_call r6 (run_eq (show ok (ctx 1002) carol (us 101) buyMsg s6 = true by decide +kernel)) alice
example := C127_other (run_eq (show ok (ctx 1002) carol (us 101) buyMsg s6 = true by decide +kernel)) (d := [1]) (by decide +kernel) alice
/-- bob only bid -/
example : over (brought bob) diary = own bob s8p + over (received bob) diary := by
  refine C127_free init0 diary_ok ?_
  have key : diary.all (fun x => decide (¬ (Asks x.m = true ∧ x.sender = bob)) &&
      (match x.sale with
       | none => true
       | some T => decide (T.buyer ≠ bob ∧ T.payee ≠ bob ∧ T.finder ≠ some bob ∧ artistOf x.q T.coll ≠ some bob)) &&
      (match removed x.before x.m with
       | none => true
       | some y => decide (y.1 ≠ bob ∧ x.sender ≠ bob))) = true := by decide +kernel
  intro x hx
  have := List.all_eq_true.mp key x hx
  rw [Bool.and_eq_true, Bool.and_eq_true] at this
  obtain ⟨⟨h1, h2⟩, h3⟩ := this
  refine ⟨of_decide_eq_true h1, ?_, ?_⟩
  · intro T hT; rw [hT] at h2; exact of_decide_eq_true h2
  · intro b n hb; rw [hb] at h3; exact of_decide_eq_true h3
end Sample

end
end Verif.V1

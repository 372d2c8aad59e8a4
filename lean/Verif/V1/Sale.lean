/- Shape of the messages of calls that sell a token. Helper file, no properties. -/
import Verif.V1.Inv

namespace Verif.V1
open Verif Spec

variable {p : Params} {me : Addr} {honest : Addr → Prop}

theorem ustars_eq : ustars = NATIVE := by decide +kernel

theorem core_append (a b : List Msg) : core (a ++ b) = core a ++ core b := List.filter_append ..

theorem core_hooks (hs : List Addr) (f : Addr → HookInfo) : core (hs.map (fun h => .hook h (f h))) = [] := by
  induction hs with
  | nil => rfl
  | cons h hs ih =>
    rw [List.map_cons]
    show core ([_] ++ _) = []
    rw [core_append, ih]; rfl

theorem handed_hooks (hs : List Addr) (f : Addr → HookInfo) : handed (hs.map (fun h => .hook h (f h))) = [] := by
  induction hs with
  | nil => rfl
  | cons h hs ih => exact ih

/-- All messages are hook notifications. -/
def AllHooks (ms : List Msg) : Prop := ∀ m ∈ ms, IsHook m

theorem allHooks_map (hs : List Addr) (f : Addr → HookInfo) : AllHooks (hs.map (fun h => .hook h (f h))) := by
  intro m hm
  obtain ⟨h, _, rfl⟩ := List.mem_map.mp hm
  trivial

theorem AllHooks.core {ms : List Msg} (h : AllHooks ms) : core ms = [] := by
  unfold Spec.core
  rw [List.filter_eq_nil_iff]
  intro m hm
  simp [h m hm]

theorem AllHooks.handed {ms : List Msg} (h : AllHooks ms) : handed ms = [] := by
  induction ms with
  | nil => rfl
  | cons m ms ih =>
    have h1 := h m List.mem_cons_self
    have h2 := ih (fun x hx => h x (List.mem_cons_of_mem _ hx))
    cases m <;> first | exact h2 | exact absurd h1 (fun h => h)

theorem AllHooks.sentTo {a : Addr} {d : Denom} {ms : List Msg} (h : AllHooks ms) : sentTo a d ms = 0 := by
  induction ms with
  | nil => rfl
  | cons m ms ih =>
    have h1 := h m List.mem_cons_self
    have h2 := ih (fun x hx => h x (List.mem_cons_of_mem _ hx))
    cases m <;> first | exact h2 | exact absurd h1 (fun h => h)

theorem AllHooks.paidOut {d : Denom} {ms : List Msg} (h : AllHooks ms) : paidOut d ms = 0 := by
  induction ms with
  | nil => rfl
  | cons m ms ih =>
    have h1 := h m List.mem_cons_self
    have h2 := ih (fun x hx => h x (List.mem_cons_of_mem _ hx))
    cases m <;> first | exact h2 | exact absurd h1 (fun h => h)

/-- The message moves coins and nothing else. -/
def IsPay : Msg → Prop
  | .send _ _ | .fairBurn _ => True
  | _ => False

def AllPay (ms : List Msg) : Prop := ∀ m ∈ ms, IsPay m

theorem AllPay.core {ms : List Msg} (h : AllPay ms) : core ms = ms := by
  unfold Spec.core
  rw [List.filter_eq_self]
  intro m hm
  have := h m hm
  cases m <;> first | exact absurd this (fun h => h) | rfl

theorem AllPay.handed {ms : List Msg} (h : AllPay ms) : handed ms = [] := by
  induction ms with
  | nil => rfl
  | cons m ms ih =>
    have h1 := h m List.mem_cons_self
    have h2 := ih (fun x hx => h x (List.mem_cons_of_mem _ hx))
    cases m <;> first | exact h2 | exact absurd h1 (fun h => h)

theorem AllPay.append {a b : List Msg} (ha : AllPay a) (hb : AllPay b) : AllPay (a ++ b) := by
  intro m hm
  rcases List.mem_append.mp hm with h | h
  · exact ha m h
  · exact hb m h

theorem finder_pay (f : Option Addr) (n : Nat) : AllPay (finderMsg f n) := by
  intro m hm
  unfold finderMsg at hm
  split at hm
  · split at hm
    · rw [List.mem_singleton] at hm; subst hm; trivial
    · cases hm
  · cases hm

theorem refund_pay (o : Option Nat) (a : Addr) : AllPay (refund o a) := by
  intro m hm
  unfold refund at hm
  split at hm
  · rw [List.mem_singleton] at hm; subst hm; trivial
  · cases hm

theorem pay_single {m : Msg} (h : IsPay m) : AllPay [m] := by
  intro x hx; rw [List.mem_singleton] at hx; subst hx; exact h

theorem Paid.pay {ctx : Ctx} {s : State} {coll : Addr} {payment : Nat} {to : Addr} {finder : Option Addr} {fee : Option Nat}
    {ms : List Msg} (h : Paid ctx s coll payment to finder fee ms) : AllPay ms := by
  cases h with
  | royalty =>
    rw [List.cons_append]
    exact (pay_single (by trivial)).append ((finder_pay _ _).append ((pay_single (by trivial)).append (pay_single (by trivial))))
  | plain =>
    rw [List.cons_append]
    exact (pay_single (by trivial)).append ((finder_pay _ _).append (pay_single (by trivial)))

theorem core_pre {pre mid post : List Msg} (h1 : AllPay pre) (h3 : AllHooks post) : core (pre ++ mid ++ post) = pre ++ core mid := by
  rw [core_append, core_append, h1.core, h3.core, List.append_nil]

/-- Shape of a call that hands over a token. -/
structure SaleShape (ctx : Ctx) (s : State) (sender : Addr) (m : Exec) (msgs : List Msg) (T : Terms) where
  pay : List Msg
  hooks : List Msg
  terms : terms s sender m = some T
  msgs : msgs = refund ((oldBid s sender m).map Bid.price) sender ++
    (pay ++ [.nft T.coll (tokStr T.tok) T.recipient] ++ hooks)
  paid : Paid ctx s T.coll T.price T.payee T.finder T.fee pay
  all : AllHooks hooks
  hookInfo : hooks = s.saleHooks.map (fun h => .hook h ⟨.sale, none, T.coll, some T.tok, T.price, T.seller, some T.buyer⟩)

theorem Sold.shape {ctx : Ctx} {s : State} {a : Ask} {price : Nat} {buyer : Addr} {finder recipient : Option Addr} {ms : List Msg}
    (h : Sold ctx s a price buyer finder recipient ms) : ∃ pay,
      Paid ctx s a.collection price (a.fundsRecipient.getD a.seller) finder a.findersFee pay ∧
      ms = pay ++ [.nft a.collection (tokStr a.tokenId) (recipient.getD buyer)] ++ saleHook s a buyer := by
  cases h with
  | mk pay h => exact ⟨pay, h, rfl⟩

theorem bidArgs_oldBid {m : Exec} {b : BidArgs} {s : State} {sender : Addr} (hm : bidArgs m = some b) :
    oldBid s sender m = s.bids.get? (b.coll, b.tok, sender) := by
  cases m <;> simp only [bidArgs, Option.some.injEq, reduceCtorEq] at hm
  all_goals subst hm; rfl

theorem bidArgs_terms {m : Exec} {b : BidArgs} {s : State} {sender : Addr} (hm : bidArgs m = some b) :
    terms s sender m = listed s sender b.coll b.tok b.finder (b.recipient.getD sender) := by
  cases m <;> simp only [bidArgs, Option.some.injEq, reduceCtorEq] at hm
  all_goals subst hm; rfl

theorem bidArgs_on {m : Exec} {b : BidArgs} (hm : bidArgs m = some b) : bidsOn b.coll b.tok m := by
  cases m <;> simp only [bidArgs, Option.some.injEq, reduceCtorEq] at hm
  all_goals subst hm; exact ⟨rfl, rfl⟩

theorem on_bidArgs {m : Exec} {c : Addr} {t : Nat} (h : bidsOn c t m) : ∃ b, bidArgs m = some b ∧ b.coll = c ∧ b.tok = t := by
  cases m <;> first | exact absurd h (fun h => h) | exact ⟨_, rfl, h.1, h.2⟩

theorem bought_shape {ctx : Ctx} {sender : Addr} {m : Exec} {s : State} {b : BidArgs} {ask : Ask}
    {sale : List Msg} (hw : WF p me s) (hm : bidArgs m = some b)
    (ha : s.asks.get? (b.coll, b.tok) = some ask)
    (hsale : Sold ctx s ask ask.price sender b.finder b.recipient sale) :
    Nonempty (SaleShape ctx s sender m (refund ((s.bids.get? (b.coll, b.tok, sender)).map Bid.price) sender ++ sale)
      ⟨b.coll, b.tok, ask.price, ask.seller, ask.fundsRecipient.getD ask.seller, sender, b.recipient.getD sender, b.finder, ask.findersFee⟩) := by
  obtain ⟨pay, h1, rfl⟩ := hsale.shape
  have hk := (hw.asks _ _ ha).key
  simp only [Prod.mk.injEq] at hk
  refine ⟨pay, saleHook s ask sender, ?_, ?_, ?_, allHooks_map _ _, ?_⟩
  · rw [bidArgs_terms hm, listed, ha]; rfl
  · rw [bidArgs_oldBid hm]; simp only [hk.1, hk.2]
  · rw [← hk.1]; exact h1
  · unfold saleHook; simp only [hk.1, hk.2]

theorem refund_none (a : Addr) : refund none a = [] := rfl

theorem sale_shape {ctx : Ctx} {sender : Addr} {funds : List Coin} {m : Exec} {s s' : State} {msgs : List Msg} (hw : WF p me s)
    (e : Eff p ctx sender funds s m s' msgs) (hh : handed msgs ≠ []) : ∃ T, Nonempty (SaleShape ctx s sender m msgs T) := by
  have hooks : ∀ (l : List Addr) (f : Addr → HookInfo), handed (l.map (fun h => .hook h (f h))) = [] := handed_hooks
  cases e with
  | setAsk =>
    exfalso; apply hh
    rw [handed_append]; unfold askHook; rw [hooks]
    split <;> rfl
  | removeAsk => exact absurd (hooks _ _) hh
  | updatePrice => exact absurd (hooks _ _) hh
  | bidSaved =>
    exfalso; apply hh
    rw [handed_append, (refund_pay _ _).handed]; exact hooks _ _
  | bought m b price ask sale hm hv hfinder hfee hfunds hpos hmin ha hlive hact hres hty hprice hown hsale =>
    subst hprice
    exact ⟨_, bought_shape hw hm ha hsale⟩
  | removeBid => exact absurd (hooks _ _) hh
  | acceptBid coll tok bidder finder bid sale hv hf hown htr hb hlive hsale =>
    obtain ⟨pay, h1, rfl⟩ := hsale.shape
    exact ⟨⟨coll, tok, bid.price, sender, sender, bidder, bidder, finder, bid.findersFee⟩, ⟨pay, _,
      by simp only [terms, hb, Option.map_some], rfl, h1, allHooks_map _ _, rfl⟩⟩
  | rejectBid => exact absurd (hooks _ _) hh
  | setCBid coll expires fee price =>
    exfalso; apply hh
    rw [handed_append]; unfold cbidHook; rw [hooks]
    split <;> rfl
  | removeCBid => exact absurd (hooks _ _) hh
  | acceptCBid coll tok bidder finder bid sale hv hf hown htr hb hlive hsale =>
    obtain ⟨pay, h1, rfl⟩ := hsale.shape
    exact ⟨⟨coll, tok, bid.price, sender, sender, bidder, bidder, finder, bid.findersFee⟩, ⟨pay, _,
      by simp only [terms, hb, Option.map_some], rfl, h1, allHooks_map _ _, rfl⟩⟩
  | syncAsk => exact absurd (hooks _ _) hh
  | staleAsk => exact absurd (hooks _ _) hh
  | staleBid => exact absurd (hooks _ _) hh
  | staleCBid => exact absurd (hooks _ _) hh

theorem SaleShape.handed {ctx : Ctx} {s : State} {sender : Addr} {m : Exec} {msgs : List Msg} {T : Terms}
    (h : SaleShape ctx s sender m msgs T) : handed msgs = [(T.coll, tokStr T.tok, T.recipient)] := by
  rw [h.msgs]
  simp only [handed_append, (refund_pay _ _).handed, h.paid.pay.handed, h.all.handed, Spec.handed, List.nil_append,
    List.append_nil]

theorem SaleShape.core {ctx : Ctx} {s : State} {sender : Addr} {m : Exec} {msgs : List Msg} {T : Terms}
    (h : SaleShape ctx s sender m msgs T) : core msgs =
      refund ((oldBid s sender m).map Bid.price) sender ++ (h.pay ++ [.nft T.coll (tokStr T.tok) T.recipient]) := by
  rw [congrArg Spec.core h.msgs]
  simp only [core_append, (refund_pay _ _).core, h.paid.pay.core, h.all.core, List.append_nil]
  rfl

/-- Basis points of an amount, rounded down once. -/
theorem percent_share (x t : Nat) : x * percent t / ONE / 100 = share t x := by
  unfold percent share ONE
  rw [Nat.div_div_eq_div_mul, ← Nat.mul_assoc]
  exact Nat.mul_div_mul_right (x * t) 10000 (m := 10 ^ 16) (by decide)

theorem finFee_share (x : Nat) (fi : Option Addr) (fee : Option Nat) : finFee x fi fee =
    (match fi, fee with
     | some _, some f => share f x
     | _, _ => 0) := by
  unfold finFee
  cases fi with
  | none => rfl
  | some a =>
    cases fee with
    | none => rfl
    | some f => exact percent_share x f

end Verif.V1

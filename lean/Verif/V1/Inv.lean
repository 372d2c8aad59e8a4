/- Invariants of reachable states, conservation of funds. Helper file, no properties. -/
import Verif.V1.Eff

namespace Verif.V1
open Verif Spec

variable {p : Params} {me : Addr} {honest : Addr → Prop}

/-! ### Invariant -/

structure GoodAsk (p : Params) (me : Addr) (k : AskKey) (a : Ask) : Prop where
  key : (a.collection, a.tokenId) = k
  valid : p.valid a.collection = true
  pos : 0 < a.price
  seller : a.seller ≠ me
  fee : ∀ f, a.findersFee = some f → f ≤ 10000
  reserve : a.reserveFor ≠ none → a.saleType = .fixedPrice

structure GoodBid (p : Params) (me : Addr) (k : BidKey) (b : Bid) : Prop where
  key : (b.collection, b.tokenId, b.bidder) = k
  valid : p.valid b.collection = true
  pos : 0 < b.price
  bidder : b.bidder ≠ me
  fee : ∀ f, b.findersFee = some f → f ≤ 10000

structure GoodCBid (p : Params) (me : Addr) (k : CBidKey) (b : CBid) : Prop where
  key : (b.collection, b.bidder) = k
  valid : p.valid b.collection = true
  pos : 0 < b.price
  bidder : b.bidder ≠ me
  fee : ∀ f, b.findersFee = some f → f ≤ 10000

structure GoodParams (c : SudoParams) : Prop where
  trading : ∃ n, c.tradingFee = percent n ∧ n ≤ 10000
  finders : ∃ n, c.maxFindersFee = percent n ∧ n ≤ 10000
  reward : ∃ n, c.bidRemovalReward = percent n ∧ n ≤ 10000
  ask : c.askExpiry.min ≤ c.askExpiry.max
  bid : c.bidExpiry.min ≤ c.bidExpiry.max
  stale : ∃ n, c.staleBidDuration = .time n

structure WF (p : Params) (me : Addr) (s : State) : Prop where
  asks : ∀ k a, s.asks.get? k = some a → GoodAsk p me k a
  bids : ∀ k b, s.bids.get? k = some b → GoodBid p me k b
  cbids : ∀ k b, s.cbids.get? k = some b → GoodCBid p me k b
  params : GoodParams s.params
  cbidHooks : s.cbidHooks = []

section
variable {K V : Type} [DecidableEq K] {m : AMap K V} {P : K → V → Prop}

theorem insert_all (h : ∀ k v, m.get? k = some v → P k v) {k : K} {v : V} (hv : P k v) :
    ∀ k' v', (m.insert k v).get? k' = some v' → P k' v' := by
  intro k' v' h'
  rw [AMap.get?_insert] at h'
  split at h'
  case isTrue e => cases h'; subst e; exact hv
  · exact h k' v' h'

theorem erase_all (h : ∀ k v, m.get? k = some v → P k v) (k : K) :
    ∀ k' v', (m.erase k).get? k' = some v' → P k' v' := by
  intro k' v' h'
  rw [AMap.get?_erase] at h'
  split at h'
  · cases h'
  · exact h k' v' h'
end

theorem percent_le {a b : Nat} : percent a ≤ percent b ↔ a ≤ b := by unfold percent; omega

theorem WF.fee {s : State} (hw : WF p me s) {fee : Option Nat} (h : ∀ f, fee = some f → percent f ≤ s.params.maxFindersFee) :
    ∀ f, fee = some f → f ≤ 10000 :=
  fun f hf => by
    obtain ⟨n, h1, h2⟩ := hw.params.finders
    have := h f hf
    rw [h1, percent_le] at this; omega

theorem WF.exec {ctx : Ctx} {sender : Addr} {funds : List Coin} {m : Exec} {s s' : State} {msgs : List Msg} (hw : WF p me s)
    (hne : sender ≠ me) (e : Eff p ctx sender funds s m s' msgs) : WF p me s' := by
  obtain ⟨ha, hb, hc, hp, hk⟩ := hw
  have hw : WF p me s := ⟨ha, hb, hc, hp, hk⟩
  cases e with
  | setAsk ty coll tok price recipient reserveFor fee expires paid hv hpos hden hmin hmax hown htr happ hexp hpaid hlist hfee hres =>
    refine ⟨insert_all ha ⟨rfl, hv, hpos, hne, hw.fee hfee, ?_⟩, hb, hc, hp, hk⟩
    intro h
    cases hr : reserveFor with
    | none => exact absurd hr h
    | some r => exact (hres r hr).2
  | removeAsk coll tok ask => exact ⟨erase_all ha _, hb, hc, hp, hk⟩
  | updatePrice coll tok price ask hv hf hown hpos hden hmin hask =>
    have hg := ha _ _ hask
    exact ⟨insert_all ha ⟨hg.key, hg.valid, hpos, hg.seller, hg.fee, hg.reserve⟩, hb, hc, hp, hk⟩
  | bidSaved m b price hm hv hfinder hfee hfunds hpos =>
    exact ⟨ha, insert_all (erase_all hb _) ⟨rfl, hv, hpos, hne, hw.fee hfee⟩, hc, hp, hk⟩
  | bought => exact ⟨erase_all ha _, erase_all hb _, hc, hp, hk⟩
  | removeBid => exact ⟨ha, erase_all hb _, hc, hp, hk⟩
  | acceptBid => exact ⟨erase_all ha _, erase_all hb _, hc, hp, hk⟩
  | rejectBid => exact ⟨ha, erase_all hb _, hc, hp, hk⟩
  | setCBid coll expires fee price hv hfunds hpos hmin hexp hfee =>
    exact ⟨ha, hb, insert_all hc ⟨rfl, hv, hpos, hne, hw.fee hfee⟩, hp, hk⟩
  | removeCBid => exact ⟨ha, hb, erase_all hc _, hp, hk⟩
  | acceptCBid => exact ⟨erase_all ha _, hb, erase_all hc _, hp, hk⟩
  | syncAsk coll tok ask hv hf hop hask =>
    have hg := ha _ _ hask
    exact ⟨insert_all ha ⟨hg.key, hg.valid, hg.pos, hg.seller, hg.fee, hg.reserve⟩, hb, hc, hp, hk⟩
  | staleAsk => exact ⟨erase_all ha _, hb, hc, hp, hk⟩
  | staleBid => exact ⟨ha, erase_all hb _, hc, hp, hk⟩
  | staleCBid => exact ⟨ha, hb, erase_all hc _, hp, hk⟩

/-! ### Sudo -/

theorem bpsOk_ok {o : Option Nat} {u : Unit} (h : bpsOk o = .ok u) : ∀ n, o = some n → n ≤ 10000 := by
  rintro n rfl; exact ensure_ok.mp h

theorem rangeOk_ok {o : Option ExpiryRange} {u : Unit} (h : rangeOk o = .ok u) : ∀ r, o = some r → r.min ≤ r.max := by
  rintro n rfl; exact ensure_ok.mp h

theorem getD_le {o : Option Nat} {d b : Nat} (h : ∀ n, o = some n → n ≤ b) (hd : ∃ n, d = percent n ∧ n ≤ b) :
    ∃ n, (o.map percent).getD d = percent n ∧ n ≤ b := by
  cases o with
  | none => exact hd
  | some n => exact ⟨n, rfl, h n rfl⟩

/-- What a successful sudo message did. -/
inductive SEff (p : Params) (s : State) : Sudo → State → Prop where
  | params (u : Update) (c : SudoParams) (hops : c.operators = s.params.operators)
      (h1 : c.tradingFee = (u.tradingFeeBps.map percent).getD s.params.tradingFee)
      (h2 : c.maxFindersFee = (u.maxFindersFeeBps.map percent).getD s.params.maxFindersFee)
      (h3 : c.bidRemovalReward = (u.bidRemovalRewardBps.map percent).getD s.params.bidRemovalReward)
      (h4 : c.askExpiry = u.askExpiry.getD s.params.askExpiry) (h5 : c.bidExpiry = u.bidExpiry.getD s.params.bidExpiry)
      (h6 : c.staleBidDuration = (u.staleBidDuration.map Duration.time).getD s.params.staleBidDuration)
      (h7 : c.minPrice = u.minPrice.getD s.params.minPrice) (h8 : c.listingFee = u.listingFee.getD s.params.listingFee)
      (b1 : ∀ n, u.tradingFeeBps = some n → n ≤ 10000) (b2 : ∀ n, u.maxFindersFeeBps = some n → n ≤ 10000)
      (b3 : ∀ n, u.bidRemovalRewardBps = some n → n ≤ 10000) (b4 : ∀ r, u.askExpiry = some r → r.min ≤ r.max)
      (b5 : ∀ r, u.bidExpiry = some r → r.min ≤ r.max) :
      SEff p s (.updateParams u) { s with params := c }
  | addOp (a : Bytes) (hv : p.valid a = true) (h : a ∉ s.params.operators) :
      SEff p s (.addOperator a) { s with params := { s.params with operators := s.params.operators ++ [a] } }
  | removeOp (a : Bytes) (hv : p.valid a = true) (h : a ∈ s.params.operators) :
      SEff p s (.removeOperator a) { s with params := { s.params with operators := s.params.operators.erase a } }
  | addSale (a : Bytes) (hv : p.valid a = true) (h : a ∉ s.saleHooks) :
      SEff p s (.addSaleHook a) { s with saleHooks := s.saleHooks ++ [a] }
  | addAsk (a : Bytes) (hv : p.valid a = true) (h : a ∉ s.askHooks) :
      SEff p s (.addAskHook a) { s with askHooks := s.askHooks ++ [a] }
  | addBid (a : Bytes) (hv : p.valid a = true) (h : a ∉ s.bidHooks) :
      SEff p s (.addBidHook a) { s with bidHooks := s.bidHooks ++ [a] }
  | removeSale (a : Bytes) (hv : p.valid a = true) (h : a ∈ s.saleHooks) :
      SEff p s (.removeSaleHook a) { s with saleHooks := s.saleHooks.erase a }
  | removeAsk (a : Bytes) (hv : p.valid a = true) (h : a ∈ s.askHooks) :
      SEff p s (.removeAskHook a) { s with askHooks := s.askHooks.erase a }
  | removeBid (a : Bytes) (hv : p.valid a = true) (h : a ∈ s.bidHooks) :
      SEff p s (.removeBidHook a) { s with bidHooks := s.bidHooks.erase a }

theorem sudo_eff {ctx : Ctx} {m : Sudo} {s s' : State} {msgs : List Msg} (h : sudo p ctx m s = .ok (s', msgs)) :
    SEff p s m s' ∧ msgs = [] := by
  cases m with
  | updateParams u =>
    simp only [sudo, updateParams, bind_ok] at h
    obtain ⟨_, h1, _, h2, _, h3, _, h4, _, h5, h⟩ := h
    cases h
    exact ⟨.params u _ rfl rfl rfl rfl rfl rfl rfl rfl rfl (bpsOk_ok h2) (bpsOk_ok h1) (bpsOk_ok h3) (rangeOk_ok h4) (rangeOk_ok h5), rfl⟩
  | addOperator a =>
    simp only [sudo, bind_ok, addrValidate_ok, addOperator, ensure_ok] at h
    obtain ⟨_, ⟨hv, rfl⟩, _, h1, h⟩ := h
    cases h; exact ⟨.addOp a hv h1, rfl⟩
  | removeOperator a =>
    simp only [sudo, bind_ok, addrValidate_ok, removeOperator, ensure_ok] at h
    obtain ⟨_, ⟨hv, rfl⟩, _, h1, h⟩ := h
    cases h; exact ⟨.removeOp a hv h1, rfl⟩
  | addSaleHook a =>
    simp only [sudo, bind_ok, addrValidate_ok, addHook, ensure_ok] at h
    obtain ⟨_, ⟨hv, rfl⟩, hs, ⟨_, h1, h2⟩, h⟩ := h
    cases h2; cases h; exact ⟨.addSale a hv h1, rfl⟩
  | addAskHook a =>
    simp only [sudo, bind_ok, addrValidate_ok, addHook, ensure_ok] at h
    obtain ⟨_, ⟨hv, rfl⟩, hs, ⟨_, h1, h2⟩, h⟩ := h
    cases h2; cases h; exact ⟨.addAsk a hv h1, rfl⟩
  | addBidHook a =>
    simp only [sudo, bind_ok, addrValidate_ok, addHook, ensure_ok] at h
    obtain ⟨_, ⟨hv, rfl⟩, hs, ⟨_, h1, h2⟩, h⟩ := h
    cases h2; cases h; exact ⟨.addBid a hv h1, rfl⟩
  | removeSaleHook a =>
    simp only [sudo, bind_ok, addrValidate_ok, removeHook, ensure_ok] at h
    obtain ⟨_, ⟨hv, rfl⟩, hs, ⟨_, h1, h2⟩, h⟩ := h
    cases h2; cases h; exact ⟨.removeSale a hv h1, rfl⟩
  | removeAskHook a =>
    simp only [sudo, bind_ok, addrValidate_ok, removeHook, ensure_ok] at h
    obtain ⟨_, ⟨hv, rfl⟩, hs, ⟨_, h1, h2⟩, h⟩ := h
    cases h2; cases h; exact ⟨.removeAsk a hv h1, rfl⟩
  | removeBidHook a =>
    simp only [sudo, bind_ok, addrValidate_ok, removeHook, ensure_ok] at h
    obtain ⟨_, ⟨hv, rfl⟩, hs, ⟨_, h1, h2⟩, h⟩ := h
    cases h2; cases h; exact ⟨.removeBid a hv h1, rfl⟩

theorem SEff.orders {m : Sudo} {s s' : State} (e : SEff p s m s') :
    s'.asks = s.asks ∧ s'.bids = s.bids ∧ s'.cbids = s.cbids ∧ s'.cbidHooks = s.cbidHooks := by
  cases e <;> exact ⟨rfl, rfl, rfl, rfl⟩

theorem WF.sudo {m : Sudo} {s s' : State} (hw : WF p me s) (e : SEff p s m s') : WF p me s' := by
  obtain ⟨e1, e2, e3, e4⟩ := e.orders
  have hp := hw.params
  refine ⟨by rw [e1]; exact hw.asks, by rw [e2]; exact hw.bids, by rw [e3]; exact hw.cbids, ?_, by rw [e4]; exact hw.cbidHooks⟩
  cases e with
  | params u c hops h1 h2 h3 h4 h5 h6 h7 h8 b1 b2 b3 b4 b5 =>
    refine ⟨?_, ?_, ?_, ?_, ?_, ?_⟩
    · rw [h1]; exact getD_le b1 hp.trading
    · rw [h2]; exact getD_le b2 hp.finders
    · rw [h3]; exact getD_le b3 hp.reward
    · show c.askExpiry.min ≤ c.askExpiry.max
      rw [h4]
      cases hu : u.askExpiry with
      | none => exact hp.ask
      | some r => exact b4 r hu
    · show c.bidExpiry.min ≤ c.bidExpiry.max
      rw [h5]
      cases hu : u.bidExpiry with
      | none => exact hp.bid
      | some r => exact b5 r hu
    · show ∃ n, c.staleBidDuration = .time n
      rw [h6]
      cases u.staleBidDuration with
      | none => exact hp.stale
      | some n => exact ⟨n, rfl⟩
  | addOp a => exact ⟨hp.1, hp.2, hp.3, hp.4, hp.5, hp.6⟩
  | removeOp a => exact ⟨hp.1, hp.2, hp.3, hp.4, hp.5, hp.6⟩
  | addSale a => exact hp
  | addAsk a => exact hp
  | addBid a => exact hp
  | removeSale a => exact hp
  | removeAsk a => exact hp
  | removeBid a => exact hp

theorem WF.init {i : Init} {s : State} (h : instantiate p i = .ok s) : WF p me s := by
  simp only [instantiate, bind_ok, ensure_ok, ExpiryRange.validate] at h
  obtain ⟨_, h1, _, h2, _, h3, _, h4, _, h5, _, h6, ops, _, hooks, _, h⟩ := h
  cases h
  refine ⟨fun k a h => (by cases h), fun k a h => (by cases h), fun k a h => (by cases h), ?_, rfl⟩
  refine ⟨⟨_, rfl, h2⟩, ⟨_, rfl, h1⟩, ⟨_, rfl, h3⟩, h4, h5, ?_⟩
  show ∃ n, i.staleBidDuration = .time n
  split at h6
  · cases h6
  case h_2 n hn => exact ⟨n, hn⟩

theorem WF.step {s s' : State} (hw : WF p me s) (h : Step p me s s') : WF p me s' := by
  cases h with
  | call _ hne h => exact hw.exec hne (execute_eff h)
  | sudo _ h => exact hw.sudo (sudo_eff h).1

theorem WF.after {s s' : State} (hw : WF p me s) (h : After p me s s') : WF p me s' := by
  induction h with
  | refl => exact hw
  | step _ hs ih => exact ih.step hs

theorem Spec.Reach.wf {s : State} (h : Reach p me s) : WF p me s := by
  obtain ⟨i, s0, h0, h⟩ := h
  exact (WF.init h0).after h

theorem Spec.Reach.step {s s' : State} (h : Reach p me s) (hs : Step p me s s') : Reach p me s' := by
  obtain ⟨i, s0, h0, h⟩ := h
  exact ⟨i, s0, h0, .step h hs⟩

/-! ### Money -/

theorem outflow_eq (d : Denom) : ∀ ms : List Msg, outflow d ms = paidOut d ms
  | [] => rfl
  | m :: ms => by
    rw [outflow_cons, outflow_eq d ms]
    cases m <;> simp [Msg.out, paidOut]

theorem paidOut_append (d : Denom) (a b : List Msg) : paidOut d (a ++ b) = paidOut d a + paidOut d b := by
  simp only [← outflow_eq, outflow_append]

theorem paidOut_hooks (d : Denom) (hs : List Addr) (f : Addr → HookInfo) : paidOut d (hs.map (fun h => .hook h (f h))) = 0 := by
  induction hs with
  | nil => rfl
  | cons h hs ih => exact ih

theorem paidOut_askHook (d : Denom) (s : State) (a : Ask) (x : HookAction) : paidOut d (askHook s a x) = 0 := paidOut_hooks _ _ _
theorem paidOut_bidHook (d : Denom) (s : State) (a : Bid) (x : HookAction) : paidOut d (bidHook s a x) = 0 := paidOut_hooks _ _ _
theorem paidOut_cbidHook (d : Denom) (s : State) (a : CBid) (x : HookAction) : paidOut d (cbidHook s a x) = 0 := paidOut_hooks _ _ _
theorem paidOut_saleHook (d : Denom) (s : State) (a : Ask) (x : Addr) : paidOut d (saleHook s a x) = 0 := paidOut_hooks _ _ _

/-- `n` in the native denom, else nothing. -/
def nat (d : Denom) (n : Nat) : Nat := if d = NATIVE then n else 0

theorem nat_coin (d : Denom) (n : Nat) : amountOf d [⟨NATIVE, n⟩] = nat d n := by
  rw [amountOf_singleton]
  unfold Coin.inDenom nat
  by_cases h : d = NATIVE
  · simp [h]
  · simp [h, Ne.symm h]

theorem nat_add (d : Denom) (a b : Nat) : nat d (a + b) = nat d a + nat d b := by unfold nat; split <;> rfl
theorem nat_le {d : Denom} {a b : Nat} (h : a ≤ b) : nat d a ≤ nat d b := by unfold nat; split <;> omega
theorem nat_zero (d : Denom) : nat d 0 = 0 := by unfold nat; split <;> rfl
theorem nat_native (a : Nat) : nat NATIVE a = a := if_pos rfl

theorem paidOut_finder (d : Denom) (finder : Option Addr) (payment : Nat) (fee : Option Nat) :
    paidOut d (finderMsg finder (finFee payment finder fee)) = nat d (finFee payment finder fee) := by
  cases finder with
  | none => simp [finderMsg, finFee, paidOut, nat_zero]
  | some f =>
    unfold finderMsg
    simp only
    split
    · simp [paidOut, nat_coin]
    case isFalse h =>
      have : finFee payment (some f) fee = 0 := by omega
      rw [this]; simp [paidOut, nat_zero]

theorem paidOut_refund (d : Denom) (o : Option Nat) (a : Addr) : paidOut d (refund o a) = nat d (o.getD 0) := by
  cases o with
  | none => exact (nat_zero d).symm
  | some n => simp [refund, paidOut, nat_coin]

/-- The two parts of the royalty split. -/
theorem split_share (x s o : Nat) (ho : 0 < o) (hs : s ≤ o) : x * s / o + x * (o - s) / o ≤ x ∧
    x ≤ x * s / o + x * (o - s) / o + 1 := by
  have h1 : x * s + x * (o - s) = x * o := by rw [← Nat.mul_add]; congr 1; omega
  have h2 := Nat.add_div (a := x * s) (b := x * (o - s)) ho
  rw [h1, Nat.mul_div_cancel _ ho] at h2
  split at h2 <;> omega

/-- Total paid by a sale. -/
theorem Paid.total {ctx : Ctx} {s : State} {coll : Addr} {payment : Nat} {to : Addr} {finder : Option Addr} {fee : Option Nat}
    {ms : List Msg} (h : Paid ctx s coll payment to finder fee ms) :
    ∃ n, n ≤ payment ∧ payment ≤ n + 1 ∧ (∀ d, paidOut d ms = nat d n) := by
  cases h with
  | royalty info roy h1 h2 h3 h4 h5 h6 =>
    have hs := split_share payment roy.share ONE ONE_pos h4
    refine ⟨payment * roy.share / ONE + payment * (ONE - roy.share) / ONE, hs.1, hs.2, ?_⟩
    intro d
    simp only [List.cons_append, paidOut, paidOut_append, paidOut_finder, nat_coin]
    have h7 : payment * (ONE - roy.share) / ONE = (payment * (ONE - roy.share) / ONE - netFee s payment - finFee payment finder fee) +
        (netFee s payment + finFee payment finder fee) := by omega
    conv => rhs; rw [h7]
    simp only [nat_add]
    omega
  | plain info h1 h2 h3 =>
    refine ⟨payment, Nat.le_refl _, by omega, ?_⟩
    intro d
    simp only [List.cons_append, paidOut, paidOut_append, paidOut_finder, nat_coin]
    have h7 : payment = (payment - netFee s payment - finFee payment finder fee) +
        (netFee s payment + finFee payment finder fee) := by omega
    conv => rhs; rw [h7]
    simp only [nat_add]
    omega

theorem Sold.total {ctx : Ctx} {s : State} {a : Ask} {price : Nat} {buyer : Addr} {finder recipient : Option Addr} {ms : List Msg}
    (h : Sold ctx s a price buyer finder recipient ms) :
    ∃ n, n ≤ price ∧ price ≤ n + 1 ∧ (∀ d, paidOut d ms = nat d n) := by
  cases h with
  | mk pay h =>
    obtain ⟨n, h1, h2, h3⟩ := h.total
    refine ⟨n, h1, h2, ?_⟩
    intro d
    rw [paidOut_append, paidOut_append, paidOut_saleHook, h3 d]
    simp [paidOut]

theorem handed_append (x y : List Msg) : handed (x ++ y) = handed x ++ handed y := by
  induction x with
  | nil => rfl
  | cons m x ih => cases m <;> simp [handed, ih]

/-! ### Escrow -/

def escrow (s : State) (d : Denom) : Nat := nat d (openBids s)

theorem openBids_eq (s : State) : openBids s = s.bids.sum Bid.price + s.cbids.sum CBid.price := rfl

theorem sum_erase_getD {K : Type} [DecidableEq K] {m : AMap K Bid} (k : K) :
    (m.erase k).sum Bid.price + ((m.get? k).map Bid.price).getD 0 = m.sum Bid.price := by
  cases h : m.get? k with
  | none => rw [AMap.erase_eq_self h]; rfl
  | some b =>
    have := AMap.sum_erase_of_get? Bid.price h
    simp only [Option.map_some, Option.getD_some]; omega

theorem conservation {ctx : Ctx} {sender : Addr} {funds : List Coin} {m : Exec} {s s' : State} {msgs : List Msg}
    (e : Eff p ctx sender funds s m s' msgs) :
    ∃ dust, dust ≤ 1 ∧ (handed msgs = [] → dust = 0) ∧
      ∀ d, paidOut d msgs + escrow s' d + nat d dust = amountOf d funds + escrow s d := by
  cases e with
  | setAsk ty coll tok price recipient reserveFor fee expires paid hv hpos hden hmin hmax hown htr happ hexp hpaid =>
    refine ⟨0, by omega, fun _ => rfl, ?_⟩
    intro d
    have h1 : amountOf d funds = nat d paid := by
      rw [mayPay_ok] at hpaid
      rcases hpaid with ⟨rfl, rfl⟩ | ⟨rfl, _⟩
      · exact (nat_zero d).symm
      · exact nat_coin d paid
    rw [paidOut_append, paidOut_askHook, h1, nat_zero]
    simp only [escrow, openBids_eq]
    split
    · simp [paidOut, nat_coin]
    case isFalse h =>
      have : paid = 0 := by omega
      simp [paidOut, this, nat_zero]
  | removeAsk coll tok ask hv hf =>
    refine ⟨0, by omega, fun _ => rfl, ?_⟩
    intro d
    rw [paidOut_askHook, hf, nat_zero]; simp [escrow, openBids_eq, amountOf]
  | updatePrice coll tok price ask hv hf =>
    refine ⟨0, by omega, fun _ => rfl, ?_⟩
    intro d
    rw [paidOut_askHook, hf, nat_zero]; simp [escrow, openBids_eq, amountOf]
  | bidSaved m b price hm hv hfinder hfee hfunds =>
    refine ⟨0, by omega, fun _ => rfl, ?_⟩
    intro d
    have h1 := sum_erase_getD (m := s.bids) (b.coll, b.tok, sender)
    have h2 := AMap.sum_insert_new (m := s.bids.erase (b.coll, b.tok, sender)) (⟨b.coll, b.tok, sender, price, b.fee, b.expires⟩ : Bid)
      Bid.price (AMap.get?_erase_self _ _)
    rw [paidOut_append, paidOut_bidHook, paidOut_refund, hfunds, nat_coin]
    simp only [escrow, openBids_eq]
    rw [h2, ← h1]
    simp only [nat_add, nat_zero]
    omega
  | bought m b price ask sale hm hv hfinder hfee hfunds hpos hmin ha hlive hact hres hty hprice hown hsale =>
    obtain ⟨n, h1, h2, h3⟩ := hsale.total
    refine ⟨price - n, by omega, ?_, ?_⟩
    · intro hh
      exfalso
      cases hsale with
      | mk pay _ =>
        simp [handed_append, handed] at hh
    · intro d
      have h4 := sum_erase_getD (m := s.bids) (b.coll, b.tok, sender)
      rw [paidOut_append, paidOut_refund, hfunds, nat_coin, h3 d]
      simp only [escrow, openBids_eq]
      rw [← h4]
      have h5 : price = n + (price - n) := by omega
      conv => rhs; rw [h5]
      simp only [nat_add]
      omega
  | removeBid coll tok bid hv hf hb =>
    refine ⟨0, by omega, fun _ => rfl, ?_⟩
    intro d
    have h1 := AMap.sum_erase_of_get? Bid.price hb
    simp only [paidOut, paidOut_bidHook, hf, nat_zero, escrow, openBids_eq, nat_coin]
    rw [← h1]
    simp only [nat_add, amountOf]; omega
  | acceptBid coll tok bidder finder bid sale hv hf hown htr hb hlive hsale =>
    obtain ⟨n, h1, h2, h3⟩ := hsale.total
    refine ⟨bid.price - n, by omega, ?_, ?_⟩
    · intro hh
      exfalso
      cases hsale with
      | mk pay _ =>
        simp [handed_append, handed] at hh
    · intro d
      have h4 := AMap.sum_erase_of_get? Bid.price hb
      rw [h3 d]
      simp only [escrow, openBids_eq]
      rw [← h4, hf]
      have h5 : bid.price = n + (bid.price - n) := by omega
      conv => rhs; rw [h5]
      simp only [nat_add, amountOf]
      omega
  | rejectBid coll tok bidder bid hv hf hown hb =>
    refine ⟨0, by omega, fun _ => rfl, ?_⟩
    intro d
    have h1 := AMap.sum_erase_of_get? Bid.price hb
    simp only [paidOut, paidOut_bidHook, hf, nat_zero, escrow, openBids_eq, nat_coin]
    rw [← h1]
    simp only [nat_add, amountOf]; omega
  | setCBid coll expires fee price hv hfunds =>
    refine ⟨0, by omega, fun _ => rfl, ?_⟩
    intro d
    rw [paidOut_append, paidOut_cbidHook, hfunds, nat_coin]
    simp only [escrow, openBids_eq]
    cases hb : s.cbids.get? (coll, sender) with
    | none =>
      have h2 := AMap.sum_insert_new (⟨coll, sender, price, fee, expires⟩ : CBid) CBid.price hb
      rw [h2]
      simp only [nat_add, nat_zero, paidOut]; omega
    | some b =>
      have h2 := AMap.sum_insert_old (⟨coll, sender, price, fee, expires⟩ : CBid) CBid.price hb
      simp only at h2
      simp only [paidOut, nat_coin, nat_zero]
      have h3 : nat d ((s.cbids.insert (coll, sender) ⟨coll, sender, price, fee, expires⟩).sum CBid.price) + nat d b.price =
          nat d price + nat d (s.cbids.sum CBid.price) := by
        rw [← nat_add, ← nat_add]; congr 1; omega
      simp only [nat_add]; omega
  | removeCBid coll bid hv hf hb =>
    refine ⟨0, by omega, fun _ => rfl, ?_⟩
    intro d
    have h1 := AMap.sum_erase_of_get? CBid.price hb
    simp only [paidOut, paidOut_cbidHook, hf, nat_zero, escrow, openBids_eq, nat_coin]
    rw [← h1]
    simp only [nat_add, amountOf]; omega
  | acceptCBid coll tok bidder finder bid sale hv hf hown htr hb hlive hsale =>
    obtain ⟨n, h1, h2, h3⟩ := hsale.total
    refine ⟨bid.price - n, by omega, ?_, ?_⟩
    · intro hh
      exfalso
      cases hsale with
      | mk pay _ =>
        simp [handed_append, handed] at hh
    · intro d
      have h4 := AMap.sum_erase_of_get? CBid.price hb
      rw [h3 d]
      simp only [escrow, openBids_eq]
      rw [← h4, hf]
      have h5 : bid.price = n + (bid.price - n) := by omega
      conv => rhs; rw [h5]
      simp only [nat_add, amountOf]
      omega
  | syncAsk coll tok ask hv hf =>
    refine ⟨0, by omega, fun _ => rfl, ?_⟩
    intro d
    rw [paidOut_askHook, hf, nat_zero]; simp [escrow, openBids_eq, amountOf]
  | staleAsk coll tok ask hv hf =>
    refine ⟨0, by omega, fun _ => rfl, ?_⟩
    intro d
    rw [paidOut_askHook, hf, nat_zero]; simp [escrow, openBids_eq, amountOf]
  | staleBid coll tok bidder bid n hv hf hop hb hdur hst hle =>
    refine ⟨0, by omega, fun _ => rfl, ?_⟩
    intro d
    have h1 := AMap.sum_erase_of_get? Bid.price hb
    simp only [paidOut, paidOut_bidHook, hf, nat_zero, escrow, openBids_eq, nat_coin]
    rw [← h1]
    have h5 : bid.price = (bid.price - bid.price * s.params.bidRemovalReward / ONE / 100) +
      bid.price * s.params.bidRemovalReward / ONE / 100 := by omega
    have h6 : nat d bid.price = nat d (bid.price - bid.price * s.params.bidRemovalReward / ONE / 100) +
      nat d (bid.price * s.params.bidRemovalReward / ONE / 100) := by rw [← nat_add, ← h5]
    simp only [nat_add, amountOf]; omega
  | staleCBid coll bidder bid n hv hf hop hb hdur hst hle =>
    refine ⟨0, by omega, fun _ => rfl, ?_⟩
    intro d
    have h1 := AMap.sum_erase_of_get? CBid.price hb
    simp only [paidOut, paidOut_cbidHook, hf, nat_zero, escrow, openBids_eq, nat_coin]
    rw [← h1]
    have h5 : bid.price = (bid.price - bid.price * s.params.bidRemovalReward / ONE / 100) +
      bid.price * s.params.bidRemovalReward / ONE / 100 := by omega
    have h6 : nat d bid.price = nat d (bid.price - bid.price * s.params.bidRemovalReward / ONE / 100) +
      nat d (bid.price * s.params.bidRemovalReward / ONE / 100) := by rw [← nat_add, ← h5]
    simp only [nat_add, amountOf]; omega

/-! ### Runs -/

theorem Spec.Run.step {a b : World State × List Msg} (h : Run p me honest a) (hs : (sys p me honest).Step a b) :
    Run p me honest b := by
  obtain ⟨i, w0, hi, hst⟩ := h
  exact ⟨i, w0, hi, .tail hst hs⟩

theorem Spec.Run.reach {x : World State × List Msg} (h : Run p me honest x) : Reach p me x.1.st := by
  obtain ⟨i, w0, hi, hs⟩ := h
  refine Sys.Steps.inv (P := fun y => Reach p me y.1.st) ?_ hs ⟨i, _, hi, .refl _⟩
  intro a b ha hab
  refine Sys.state_inv_step (S := sys p me honest) (I := Reach p me) ?_ ?_ ha hab
  · intro ctx sender funds m s s' msgs h1 h2 h3 h4
    exact h3.step (.call h1 h2 h4)
  · intro ctx m s s' msgs h1 h3 h4
    exact h3.step (.sudo h1 h4)

theorem init_empty {i : Init} {s : State} (h : instantiate p i = .ok s) : s.asks = .empty ∧ s.bids = .empty ∧ s.cbids = .empty := by
  simp only [instantiate, bind_ok] at h
  obtain ⟨_, _, _, _, _, _, _, _, _, _, _, _, _, _, _, _, h⟩ := h
  cases h; exact ⟨rfl, rfl, rfl⟩

theorem Spec.Run.solvent {x : World State × List Msg} (h : Run p me honest x) : (sys p me honest).Solvent escrow x := by
  obtain ⟨i, w0, hi, hs⟩ := h
  have h0 : (sys p me honest).Solvent escrow (w0, []) := by
    intro d
    obtain ⟨_, h2, h3⟩ := init_empty hi
    simp only [escrow, openBids_eq, h2, h3, AMap.sum_empty, outflow_nil, Nat.add_zero, nat_zero]
    exact Nat.zero_le _
  refine Sys.Steps.inv (P := fun y => (sys p me honest).Solvent escrow y) ?_ hs h0
  intro a b hsol hab
  refine Sys.solvent_step (S := sys p me honest) (I := fun _ => True) ?_ ?_ trivial hsol hab
  · intro ctx sender funds m s s' msgs _ _ _ h4 d
    obtain ⟨_, _, _, h⟩ := conservation (execute_eff h4)
    have := h d
    rw [outflow_eq]; omega
  · intro ctx m s s' msgs _ _ h4 d
    obtain ⟨e, rfl⟩ := sudo_eff (ctx := ctx) h4
    obtain ⟨_, e2, e3, _⟩ := e.orders
    simp only [escrow, openBids_eq, e2, e3, outflow_nil]
    omega

end Verif.V1

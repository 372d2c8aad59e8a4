/-
Marketplace v1: exactly which calls are accepted: C160.
-/
import Verif.V1.PropsSale

namespace Verif.V1
open Verif Spec

section
variable {p : Params} {me : Addr}

namespace Spec

/-- The account owns the token, by the collection's own account. -/
def Owns (ctx : Ctx) (c : Addr) (t : Nat) (x : Addr) : Prop := ctx.q.ownerOf c (tokStr t) = some x

/-- The collection does not say that trading starts later. -/
def Started (ctx : Ctx) (c : Addr) : Prop := ∀ i t, ctx.q.collInfo c = some i → i.start = some t → t ≤ ctx.time

/-- An expiry that is later than the least and not later than the greatest allowed, as seconds from now; times have 64 bits. -/
def InRange (r : ExpiryRange) (now e : Nat) : Prop :=
  now + r.min * 10^9 < e ∧ e ≤ now + r.max * 10^9 ∧ now + r.max * 10^9 < 2^64

/-- A finder's fee within the limit. -/
def FeeOk (s : State) (fee : Option Nat) : Prop := ∀ f, fee = some f → f * 10^16 ≤ s.params.maxFindersFee

/-- Optional addresses are well-formed. -/
def ValidOpt (p : Params) (o : Option Bytes) : Prop := ∀ x, o = some x → p.valid x = true

/-- The royalty share of a collection, as 1/10^18. -/
def shareOf (i : CollInfo) : Nat := (i.royalty.map Royalty.share).getD 0

/-- Finder's fee before the last division by 100. -/
def foundRaw (price : Nat) (finder : Option Addr) (fee : Option Nat) : Nat :=
  match finder, fee with
  | some _, some f => price * (f * 10^16) / 10^18
  | _, _ => 0

/-- A price can be split: the collection answers, the intermediate results fit into 128 bits, the royalty is at most 100%, and what it
leaves covers network fee and finder's fee. -/
def CanSplit (ctx : Ctx) (s : State) (c : Addr) (price : Nat) (finder : Option Addr) (fee : Option Nat) : Prop :=
  ∃ i, ctx.q.collInfo c = some i ∧ price * s.params.tradingFee / 10^18 < 2^128 ∧ foundRaw price finder fee < 2^128 ∧
    shareOf i ≤ 10^18 ∧
    price * s.params.tradingFee / 10^18 / 100 + foundRaw price finder fee / 100 ≤ price * (10^18 - shareOf i) / 10^18

/-- A bid on a token is accepted. -/
def BidAccepted (p : Params) (ctx : Ctx) (s : State) (sender : Addr) (funds : List Coin) (c : Addr) (t e : Nat)
    (finder : Option Addr) (fee : Option Nat) (only : Bool) : Prop :=
  p.valid c = true ∧ ValidOpt p finder ∧ finder ≠ some sender ∧ FeeOk s fee ∧ InRange s.params.bidExpiry ctx.time e ∧
  ∃ n, funds = [⟨ustars, n⟩] ∧ 0 < n ∧ s.params.minPrice ≤ n ∧
    match s.asks.get? (c, t) with
    | none => only = false
    | some a => ctx.time < a.expiresAt ∧ a.isActive = true ∧ (∀ r, a.reserveFor = some r → r = sender) ∧
      match a.saleType with
      | .auction => a.price ≤ n
      | .fixedPrice => n < a.price ∨ n = a.price ∧ Owns ctx c t a.seller ∧ CanSplit ctx s c n finder a.findersFee

/-- A bid may be cleaned up by an operator. -/
def Stale (s : State) (now e : Nat) : Prop := ∃ n, s.params.staleBidDuration = .time n ∧ e + n * 10^9 ≤ now

/-- The calls that are accepted. -/
def Accepts (p : Params) (ctx : Ctx) (s : State) (sender : Addr) (funds : List Coin) : Exec → Prop
  | .setAsk ty c t x rec res fee e =>
    p.valid c = true ∧ ValidOpt p rec ∧ ValidOpt p res ∧ (∀ r, res = some r → r ≠ sender ∧ ty = .fixedPrice) ∧
    x.denom = ustars ∧ 0 < x.amount ∧ s.params.minPrice ≤ x.amount ∧ x.amount ≤ maxAsk ∧ Owns ctx c t sender ∧ Started ctx c ∧
    ctx.q.approval c (tokStr t) = true ∧ InRange s.params.askExpiry ctx.time e ∧ FeeOk s fee ∧
    (funds = [] ∧ s.params.listingFee = 0 ∨ funds = [⟨ustars, s.params.listingFee⟩])
  | .removeAsk c t => funds = [] ∧ Owns ctx c t sender ∧ s.asks.get? (c, t) ≠ none
  | .updateAskPrice c t x => funds = [] ∧ Owns ctx c t sender ∧ x.denom = ustars ∧ 0 < x.amount ∧ s.params.minPrice ≤ x.amount ∧
    ∃ a, s.asks.get? (c, t) = some a ∧ a.isActive = true ∧ ctx.time < a.expiresAt
  | .setBid c t e _ f fee => BidAccepted p ctx s sender funds c t e f fee false
  | .buyNow c t e f fee => BidAccepted p ctx s sender funds c t e f fee true
  | .buyFor c t e f fee r => BidAccepted p ctx s sender funds c t e f fee true ∧ p.valid r = true
  | .removeBid c t => funds = [] ∧ s.bids.get? (c, t, sender) ≠ none
  | .acceptBid c t b f => funds = [] ∧ Owns ctx c t sender ∧ Started ctx c ∧ p.valid b = true ∧ ValidOpt p f ∧
    ∃ o, s.bids.get? (c, t, b) = some o ∧ ctx.time < o.expiresAt ∧ CanSplit ctx s c o.price f o.findersFee
  | .rejectBid c t b => funds = [] ∧ Owns ctx c t sender ∧ p.valid b = true ∧ s.bids.get? (c, t, b) ≠ none
  | .setCollectionBid c e fee => p.valid c = true ∧ FeeOk s fee ∧ InRange s.params.bidExpiry ctx.time e ∧
    ∃ n, funds = [⟨ustars, n⟩] ∧ 0 < n ∧ s.params.minPrice ≤ n
  | .removeCollectionBid c => funds = [] ∧ s.cbids.get? (c, sender) ≠ none
  | .acceptCollectionBid c t b f => funds = [] ∧ Owns ctx c t sender ∧ Started ctx c ∧ p.valid b = true ∧ ValidOpt p f ∧
    ∃ o, s.cbids.get? (c, b) = some o ∧ ctx.time < o.expiresAt ∧ CanSplit ctx s c o.price f o.findersFee
  | .syncAsk c t => funds = [] ∧ sender ∈ s.params.operators ∧
    ∃ a, s.asks.get? (c, t) = some a ∧ ctx.q.approval c (tokStr t) ≠ a.isActive
  | .removeStaleAsk c t => funds = [] ∧ sender ∈ s.params.operators ∧
    ∃ a, s.asks.get? (c, t) = some a ∧
      (ctx.q.ownerOf c (tokStr t) = none ∨ ctx.q.approval c (tokStr t) = false ∨ a.expiresAt ≤ ctx.time)
  | .removeStaleBid c t b => funds = [] ∧ sender ∈ s.params.operators ∧ p.valid b = true ∧
    ∃ o, s.bids.get? (c, t, b) = some o ∧ Stale s ctx.time o.expiresAt ∧ o.price * s.params.bidRemovalReward / 10^18 < 2^128
  | .removeStaleCollectionBid c b => funds = [] ∧ sender ∈ s.params.operators ∧ p.valid b = true ∧
    ∃ o, s.cbids.get? (c, b) = some o ∧ Stale s ctx.time o.expiresAt ∧ o.price * s.params.bidRemovalReward / 10^18 < 2^128

/-- Amounts have 128 bits and times 64. -/
structure Fits (ctx : Ctx) (s : State) (funds : List Coin) : Prop where
  now : ctx.time < 2^64
  funds : ∀ c ∈ funds, c.amount < 2^128
  bids : ∀ k b, s.bids.get? k = some b → b.price < 2^128
  cbids : ∀ k b, s.cbids.get? k = some b → b.price < 2^128
end Spec

/-! ### the checks -/

theorem ok_exists {α : Type} {x : Res α} {f : α → Out} : (∃ r, (x >>= f) = .ok r) ↔ ∃ y, x = .ok y ∧ ∃ r, f y = .ok r := by
  cases x with
  | error e =>
    constructor
    · rintro ⟨r, h⟩; cases h
    · rintro ⟨r, h, _⟩; cases h
  | ok y =>
    refine ⟨fun h => ⟨y, rfl, h⟩, ?_⟩
    rintro ⟨z, h, h2⟩
    cases h
    exact h2

theorem unit_iff {x : Res Unit} {P : Prop} (h : x = .ok () ↔ P) {f : Unit → Out} :
    (∃ r, (x >>= f) = .ok r) ↔ P ∧ ∃ r, f () = .ok r := by
  rw [ok_exists]
  constructor
  · rintro ⟨_, h1, h2⟩; exact ⟨h.mp h1, h2⟩
  · rintro ⟨h1, h2⟩; exact ⟨(), h.mpr h1, h2⟩

theorem valid_iff {a : Bytes} {f : Addr → Out} : (∃ r, (addrValidate p a >>= f) = .ok r) ↔ p.valid a = true ∧ ∃ r, f a = .ok r := by
  rw [ok_exists]
  constructor
  · rintro ⟨y, h1, h2⟩; obtain ⟨h3, rfl⟩ := addrValidate_ok.mp h1; exact ⟨h3, h2⟩
  · rintro ⟨h1, h2⟩; exact ⟨a, addrValidate_ok.mpr ⟨h1, rfl⟩, h2⟩

theorem maybe_iff {a : Option Bytes} {f : Option Addr → Out} :
    (∃ r, (maybeAddr p a >>= f) = .ok r) ↔ ValidOpt p a ∧ ∃ r, f a = .ok r := by
  rw [ok_exists]
  constructor
  · rintro ⟨y, h1, h2⟩; obtain ⟨rfl, h3⟩ := maybeAddr_ok h1; exact ⟨h3, h2⟩
  · rintro ⟨h1, h2⟩
    refine ⟨a, ?_, h2⟩
    cases a with
    | none => rfl
    | some y => simp [maybeAddr, addrValidate, h1 y rfl, ok_bind]

theorem owner_iff {ctx : Ctx} {sender coll : Addr} {tok : Nat} : onlyOwner ctx sender coll tok = .ok () ↔ Owns ctx coll tok sender := by
  simp only [onlyOwner, bind_ok, orErr_ok, ensure_ok, Owns]
  exact ⟨by rintro ⟨o, h, rfl⟩; exact h, fun h => ⟨_, h, rfl⟩⟩

theorem started_iff {ctx : Ctx} {coll : Addr} : onlyTradable ctx coll = .ok () ↔ Started ctx coll := by
  refine ⟨onlyTradable_ok, fun h => ?_⟩
  unfold onlyTradable
  split
  · rename_i i hi
    split
    · rename_i t ht
      have := h i t hi ht
      exact ensure_ok.mpr (by omega)
    · rfl
  · rfl

theorem range_iff {r : ExpiryRange} {now e : Nat} : r.isValid now e = .ok () ↔ InRange r now e := by
  have e1 : NS = 10^9 := rfl
  have e2 : U64MAX = 2^64 - 1 := rfl
  refine ⟨fun h => ?_, fun h => ?_⟩
  · have := isValid_ok h
    rw [e1, e2] at this
    exact ⟨this.1, this.2.1, by omega⟩
  · obtain ⟨h1, h2, h3⟩ := h
    simp only [ExpiryRange.isValid, bind_ok, plusSeconds_ok, ensure_ok]
    rw [e1, e2]
    exact ⟨_, ⟨by omega, rfl⟩, (), h1, _, ⟨by omega, rfl⟩, h2⟩

theorem fee_iff {s : State} {fee : Option Nat} : feeOk s fee = .ok () ↔ FeeOk s fee := by
  refine ⟨fun h => ?_, fun h => ?_⟩
  · exact feeOk_ok h
  · cases fee with
    | none => rfl
    | some f => exact ensure_ok.mpr (h f rfl)

theorem price_iff {s : State} {c : Coin} : priceValidate s c = .ok () ↔ c.denom = ustars ∧ 0 < c.amount ∧ s.params.minPrice ≤ c.amount := by
  rw [ustars_eq]
  simp only [priceValidate, bind_ok, ensure_ok]
  exact ⟨by rintro ⟨_, h1, h2⟩; exact ⟨h1.2, by omega, h2⟩, by rintro ⟨h1, h2, h3⟩; exact ⟨(), ⟨by omega, h1⟩, h3⟩⟩

theorem stale_iff {s : State} {now e : Nat} (hn : now < 2^64) : checkStale now e s.params.staleBidDuration = .ok () ↔ Stale s now e := by
  have e1 : NS = 10^9 := rfl
  have e2 : U64MAX = 2^64 - 1 := rfl
  refine ⟨checkStale_ok, ?_⟩
  rintro ⟨n, h1, h2⟩
  simp only [checkStale, h1, bind_ok, plusSeconds_ok, ensure_ok]
  rw [e1, e2]
  exact ⟨_, ⟨by omega, rfl⟩, h2⟩

theorem opt_iff {α : Type} {o : Option α} {e : Err} {f : α → Out} :
    (∃ r, (orErr o e >>= f) = .ok r) ↔ ∃ y, o = some y ∧ ∃ r, f y = .ok r := by
  rw [ok_exists]
  simp only [orErr_ok]

theorem pay_iff {funds : List Coin} {f : Nat → Out} :
    (∃ r, (mustPay funds NATIVE >>= f) = .ok r) ↔ ∃ n, funds = [⟨ustars, n⟩] ∧ 0 < n ∧ ∃ r, f n = .ok r := by
  rw [ok_exists]
  simp only [mustPay_ok, and_assoc, ustars_eq]

theorem found_raw {x : Nat} {finder : Option Addr} {fee : Option Nat} {f : Nat → Res (List Msg)} :
    (∃ r, (findersFee x finder fee >>= f) = .ok r) ↔ foundRaw x finder fee < 2^128 ∧ ∃ r, f (foundRaw x finder fee / 100) = .ok r := by
  have e2 : U128MAX = 2^128 - 1 := rfl
  unfold findersFee foundRaw
  cases finder with
  | none => simp only [ok_bind]; simp
  | some y =>
    cases fee with
    | none => simp only [ok_bind]; simp
    | some n =>
      simp only [bind_assoc, ok_bind]
      constructor
      · rintro ⟨r, h⟩
        rw [bind_ok] at h
        obtain ⟨m, h1, h⟩ := h
        rw [mulFloor_ok] at h1
        obtain ⟨h1, rfl⟩ := h1
        rw [e2] at h1
        exact ⟨Nat.lt_of_le_of_lt h1 (by decide), r, h⟩
      · rintro ⟨h1, r, h⟩
        refine ⟨r, bind_ok.mpr ⟨_, mulFloor_ok.mpr ⟨?_, rfl⟩, h⟩⟩
        rw [e2]
        exact Nat.le_pred_of_lt h1

theorem split_iff {ctx : Ctx} {s : State} {c : Addr} {x : Nat} {to : Addr} {finder : Option Addr} {fee : Option Nat} (hx : x < 2^128) :
    (∃ ms, payout ctx s c x to finder fee = .ok ms) ↔ CanSplit ctx s c x finder fee := by
  have e1 : ONE = 10^18 := rfl
  have e2 : U128MAX = 2^128 - 1 := rfl
  have hle : ∀ r, r ≤ ONE → x * r / ONE ≤ x := by
    intro r hr
    refine Nat.div_le_of_le_mul ?_
    rw [Nat.mul_comm ONE]
    exact Nat.mul_le_mul_left _ hr
  constructor
  · rintro ⟨ms, h⟩
    have hp := payout_ok h
    simp only [payout, bind_ok, orErr_ok, mulFloor_ok] at h
    obtain ⟨n, ⟨hn, rfl⟩, info, hinfo, h⟩ := h
    obtain ⟨hf, _, h⟩ := found_raw.mp ⟨ms, bind_ok.mpr h⟩
    rw [e1, e2] at hn
    refine ⟨info, hinfo, by omega, hf, ?_⟩
    unfold shareOf
    split at h
    case h_1 roy hr =>
      simp only [bind_ok, mulFloor_ok, u128_ok, ensure_ok, subChk_ok] at h
      obtain ⟨_, ⟨_, rfl⟩, _, ⟨_, rfl⟩, _, htot, _, ⟨hone, rfl⟩, _, ⟨_, rfl⟩, _, ⟨hx, rfl⟩, _, ⟨hy, rfl⟩, h⟩ := h
      have hroy : info.royalty = some roy := by
        unfold parseRoyalties at hr
        split at hr
        · split at hr
          · cases hr
          · cases hr; assumption
        · cases hr
      simp only [hroy, Option.map_some, Option.getD_some]
      rw [e1] at hone hx hy
      exact ⟨hone, by omega⟩
    case h_2 hr =>
      simp only [bind_ok, u128_ok, ensure_ok, subChk_ok] at h
      obtain ⟨_, ⟨_, rfl⟩, _, htot, _, ⟨hx, rfl⟩, _, ⟨hy, rfl⟩, h⟩ := h
      have hz : (info.royalty.map Royalty.share).getD 0 = 0 := by
        cases hi : info.royalty with
        | none => rfl
        | some r =>
          rw [hi] at hr
          unfold parseRoyalties at hr
          split at hr
          case h_2 h => cases h
          case h_1 y h =>
            cases h
            split at hr
            case isTrue hz => exact hz
            · cases hr
      rw [hz]
      rw [e1] at htot
      refine ⟨Nat.zero_le _, ?_⟩
      rw [Nat.sub_zero, Nat.mul_div_cancel _ (by decide)]
      exact htot
  · rintro ⟨i, hi, h1, h2, h3, h4⟩
    have hmul : mulFloor x s.params.tradingFee = .ok (x * s.params.tradingFee / ONE) :=
      mulFloor_ok.mpr ⟨by rw [e1, e2]; omega, rfl⟩
    simp only [payout, hmul, ok_bind, hi, orErr]
    refine found_raw.mpr ⟨h2, ?_⟩
    unfold shareOf at h3 h4
    cases hr : i.royalty with
    | none =>
      rw [hr] at h4
      simp only [Option.map_none, Option.getD_none, Nat.sub_zero] at h4
      rw [Nat.mul_div_cancel _ (by decide : 0 < 10^18), ← e1] at h4
      simp only [parseRoyalties]
      refine ⟨_, bind_ok.mpr ⟨_, u128_ok.mpr ⟨by rw [e2]; omega, rfl⟩, bind_ok.mpr ⟨(), ensure_ok.mpr h4, bind_ok.mpr ⟨_,
        subChk_ok.mpr ⟨by omega, rfl⟩, bind_ok.mpr ⟨_, subChk_ok.mpr ⟨by omega, rfl⟩, rfl⟩⟩⟩⟩⟩
    | some roy =>
      rw [hr] at h3 h4
      simp only [Option.map_some, Option.getD_some] at h3 h4
      rw [← e1] at h3 h4
      by_cases hz : roy.share = 0
      · rw [hz, Nat.sub_zero, Nat.mul_div_cancel _ (by decide : 0 < ONE)] at h4
        simp only [parseRoyalties, hz, if_true]
        refine ⟨_, bind_ok.mpr ⟨_, u128_ok.mpr ⟨by rw [e2]; omega, rfl⟩, bind_ok.mpr ⟨(), ensure_ok.mpr h4, bind_ok.mpr ⟨_,
          subChk_ok.mpr ⟨by omega, rfl⟩, bind_ok.mpr ⟨_, subChk_ok.mpr ⟨by omega, rfl⟩, rfl⟩⟩⟩⟩⟩
      · simp only [parseRoyalties, hz, if_false]
        have k1 := hle roy.share h3
        have k2 := hle (ONE - roy.share) (by omega)
        have k3 : x * roy.share / ONE + x * (ONE - roy.share) / ONE ≤ x := by
          have : x * roy.share / ONE + x * (ONE - roy.share) / ONE ≤
              (x * roy.share + x * (ONE - roy.share)) / ONE := by
            rw [Nat.le_div_iff_mul_le (by decide), Nat.add_mul]
            exact Nat.add_le_add (Nat.div_mul_le_self _ _) (Nat.div_mul_le_self _ _)
          refine Nat.le_trans this ?_
          rw [← Nat.mul_add, Nat.add_sub_cancel' h3, Nat.mul_div_cancel _ (by decide : 0 < ONE)]
          exact Nat.le_refl _
        refine ⟨_, bind_ok.mpr ⟨_, mulFloor_ok.mpr ⟨by rw [e2]; omega, rfl⟩, bind_ok.mpr ⟨_, u128_ok.mpr ⟨by rw [e2]; omega, rfl⟩,
          bind_ok.mpr ⟨(), ensure_ok.mpr (by omega), bind_ok.mpr ⟨_, subChk_ok.mpr ⟨h3, rfl⟩, bind_ok.mpr ⟨_, mulFloor_ok.mpr
          ⟨by rw [e2]; omega, rfl⟩, bind_ok.mpr ⟨_, subChk_ok.mpr ⟨by omega, rfl⟩, bind_ok.mpr ⟨_, subChk_ok.mpr ⟨by omega, rfl⟩, rfl⟩⟩⟩⟩⟩⟩⟩⟩

theorem sale_iff {ctx : Ctx} {s : State} {a : Ask} {x : Nat} {buyer : Addr} {finder rec : Option Addr} (hx : x < 2^128)
    {g : List Msg → State × List Msg} :
    (∃ r, (finalizeSale ctx s a x buyer finder rec >>= fun ms => .ok (g ms)) = .ok r) ↔ CanSplit ctx s a.collection x finder a.findersFee := by
  rw [← split_iff (to := a.fundsRecipient.getD a.seller) hx]
  simp only [finalizeSale]
  constructor
  · rintro ⟨r, h⟩
    simp only [bind_ok] at h
    obtain ⟨_, ⟨y, h1, _⟩, _⟩ := h
    exact ⟨y, h1⟩
  · rintro ⟨ms, h⟩
    rw [h]
    exact ⟨_, rfl⟩

theorem CanSplit.congr {ctx : Ctx} {s s' : State} (h : s'.params = s.params) {c : Addr} {x : Nat} {f : Option Addr} {fee : Option Nat} :
    CanSplit ctx s' c x f fee ↔ CanSplit ctx s c x f fee := by
  unfold CanSplit; rw [h]

theorem setBid_iff {ctx : Ctx} {s : State} (hr : Reach p me s) {sender : Addr} {funds : List Coin} (hfit : ∀ c ∈ funds, c.amount < 2^128)
    {c : Addr} {t e : Nat} {f : Option Addr} {fee : Option Nat} {rec : Option Addr} {only : Bool} (hv : p.valid c = true)
    (hf : ValidOpt p f) :
    (∃ r, executeSetBid ctx sender funds c t e f fee rec only s = .ok r) ↔ BidAccepted p ctx s sender funds c t e f fee only := by
  unfold executeSetBid BidAccepted
  rw [unit_iff ensure_ok, unit_iff fee_iff, pay_iff]
  simp only [hv, hf, true_and]
  refine and_congr_right fun _ => and_congr_right fun _ => ?_
  have key : ∀ n, funds = [⟨ustars, n⟩] →
      ((∃ r, (match (refundOld c t sender s).1.asks.get? (c, t) with
        | some ask =>
          ensure (¬ ask.expiresAt ≤ ctx.time) .expired >>= fun _ =>
          ensure (ask.isActive = true) .notActive >>= fun _ =>
          ensure (∀ r, ask.reserveFor = some r → r = sender) .tokenReserved >>= fun _ =>
          match ask.saleType with
          | .fixedPrice =>
            if ask.price < n then .error .invalidPrice
            else if n < ask.price then .ok (saveBid ⟨c, t, sender, n, fee, e⟩ (refundOld c t sender s).2 (refundOld c t sender s).1)
            else
              orErr (ctx.q.ownerOf ask.collection (tokStr ask.tokenId)) .notFound >>= fun owner =>
              ensure (ask.seller = owner) .notFound >>= fun _ =>
              finalizeSale ctx { (refundOld c t sender s).1 with asks := (refundOld c t sender s).1.asks.erase (c, t) } ask n sender f rec >>= fun sale =>
              .ok ({ (refundOld c t sender s).1 with asks := (refundOld c t sender s).1.asks.erase (c, t) }, (refundOld c t sender s).2 ++ sale)
          | .auction => if n < ask.price then .error .invalidPrice
            else .ok (saveBid ⟨c, t, sender, n, fee, e⟩ (refundOld c t sender s).2 (refundOld c t sender s).1)
        | none => if only then .error .notFound
          else .ok (saveBid ⟨c, t, sender, n, fee, e⟩ (refundOld c t sender s).2 (refundOld c t sender s).1)) = .ok r) ↔
        match s.asks.get? (c, t) with
        | none => only = false
        | some a => ctx.time < a.expiresAt ∧ a.isActive = true ∧ (∀ r, a.reserveFor = some r → r = sender) ∧
          match a.saleType with
          | .auction => a.price ≤ n
          | .fixedPrice => n < a.price ∨ n = a.price ∧ Owns ctx c t a.seller ∧ CanSplit ctx s c n f a.findersFee) := by
    intro n hn
    have hn2 : n < 2^128 := hfit ⟨ustars, n⟩ (by rw [hn]; exact List.mem_cons_self)
    rw [refundOld_eq]
    simp only
    cases ha : s.asks.get? (c, t) with
    | none =>
      cases only with
      | true => simp
      | false => simp
    | some a =>
      have hk := (hr.wf.asks _ _ ha).key
      simp only [Prod.mk.injEq] at hk
      simp only
      rw [unit_iff ensure_ok, unit_iff ensure_ok, unit_iff ensure_ok]
      refine and_congr (by omega) (and_congr_right fun _ => and_congr_right fun _ => ?_)
      cases a.saleType with
      | auction =>
        simp only
        split
        · exact ⟨fun h => (by obtain ⟨_, h⟩ := h; cases h), fun h => by omega⟩
        · exact ⟨fun _ => by omega, fun _ => ⟨_, rfl⟩⟩
      | fixedPrice =>
        simp only
        split
        · refine ⟨fun h => (by obtain ⟨_, h⟩ := h; cases h), fun h => ?_⟩
          rcases h with h | ⟨h, _⟩ <;> omega
        · split
          · exact ⟨fun _ => .inl (by assumption), fun _ => ⟨_, rfl⟩⟩
          · have e : n = a.price := by omega
            rw [opt_iff]
            simp only [unit_iff ensure_ok, sale_iff hn2]
            rw [hk.1, hk.2, CanSplit.congr (s := s) rfl]
            unfold Owns
            constructor
            · rintro ⟨y, h1, rfl, h2⟩; exact .inr ⟨e, h1, h2⟩
            · rintro (h | ⟨_, h1, h2⟩)
              · omega
              · exact ⟨_, h1, rfl, h2⟩
  constructor
  · rintro ⟨n, h1, h2, h⟩
    rw [unit_iff ensure_ok, unit_iff range_iff] at h
    obtain ⟨h3, h4, h5⟩ := h
    exact ⟨h4, n, h1, h2, h3, (key n h1).mp h5⟩
  · rintro ⟨h4, n, h1, h2, h3, h5⟩
    refine ⟨n, h1, h2, ?_⟩
    rw [unit_iff ensure_ok, unit_iff range_iff]
    exact ⟨h3, h4, (key n h1).mpr h5⟩

theorem done_iff {P : Prop} {x : State × List Msg} : (P ∧ ∃ r, (.ok x : Out) = .ok r) ↔ P := ⟨fun h => h.1, fun h => ⟨h, _, rfl⟩⟩

theorem some_iff {α : Type} {o : Option α} {f : α → State × List Msg} : (∃ y, o = some y ∧ ∃ r, (.ok (f y) : Out) = .ok r) ↔ o ≠ none := by
  cases o with
  | none => simp
  | some y => simp

/-- Validity of an address that occurs in the key of an order needs no check. -/
theorem drop_valid {P Q : Prop} (h : Q → P) : P ∧ Q ↔ Q := ⟨fun x => x.2, fun x => ⟨h x, x⟩⟩

theorem may_iff {funds : List Coin} {n : Nat} : (∃ x, mayPay funds NATIVE = .ok x ∧ x = n) ↔ funds = [] ∧ n = 0 ∨ funds = [⟨ustars, n⟩] := by
  rw [ustars_eq]
  match funds with
  | [] => simp [mayPay, eq_comm]
  | [c] =>
    obtain ⟨d, m⟩ := c
    by_cases h : d = NATIVE
    · simp [mayPay, h]
    · simp [mayPay, h]
  | c :: d :: l => simp [mayPay]

theorem refund_le {c : SudoParams} (h : GoodParams c) (x : Nat) : x * c.bidRemovalReward / ONE / 100 ≤ x := by
  obtain ⟨n, e, hn⟩ := h.reward
  rw [e, Nat.div_div_eq_div_mul]
  refine Nat.div_le_of_le_mul ?_
  rw [Nat.mul_comm (ONE * 100)]
  refine Nat.mul_le_mul_left _ ?_
  have : ONE = 10^18 := rfl
  unfold percent
  omega

/-! ### C160 -/

/-- In every reachable state a call succeeds if and only if it is one of those the specification lists. -/
theorem C160_v1 {ctx : Ctx} {s : State} (hr : Reach p me s) {sender : Addr} {funds : List Coin} (hfit : Fits ctx s funds) (m : Exec) :
    (∃ r, execute p ctx sender funds m s = .ok r) ↔ Accepts p ctx s sender funds m := by
  have va : ∀ {c : Addr} {t : Nat} {a : Ask}, s.asks.get? (c, t) = some a → p.valid c = true := by
    intro c t a h
    have hg := hr.wf.asks _ _ h
    have hk := hg.key
    cases hk
    exact hg.valid
  have vb : ∀ {c : Addr} {t : Nat} {b : Addr} {o : Bid}, s.bids.get? (c, t, b) = some o → p.valid c = true := by
    intro c t a o h
    have hg := hr.wf.bids _ _ h
    have hk := hg.key
    cases hk
    exact hg.valid
  have vc : ∀ {c b : Addr} {o : CBid}, s.cbids.get? (c, b) = some o → p.valid c = true := by
    intro c b o h
    have hg := hr.wf.cbids _ _ h
    have hk := hg.key
    cases hk
    exact hg.valid
  have e2 : U128MAX = 2^128 - 1 := rfl
  cases m with
  | setAsk ty c t x rec res fee e =>
    simp only [execute, Accepts]
    rw [valid_iff, maybe_iff, maybe_iff]
    refine and_congr_right fun _ => and_congr_right fun _ => and_congr_right fun _ => ?_
    unfold executeSetAsk
    rw [unit_iff price_iff, unit_iff ensure_ok, unit_iff owner_iff, unit_iff started_iff, unit_iff ensure_ok, unit_iff range_iff, ok_exists]
    simp only [unit_iff ensure_ok, unit_iff fee_iff, done_iff, ← may_iff]
    constructor
    · rintro ⟨⟨h1, h2, h3⟩, h4, h5, h6, h7, h8, n, h9, h10, h11, h12⟩
      exact ⟨h12, h1, h2, h3, h4, h5, h6, h7, h8, h11, n, h9, h10⟩
    · rintro ⟨h12, h1, h2, h3, h4, h5, h6, h7, h8, h11, n, h9, h10⟩
      exact ⟨⟨h1, h2, h3⟩, h4, h5, h6, h7, h8, n, h9, h10, h11, h12⟩
  | removeAsk c t =>
    simp only [execute, Accepts]
    rw [valid_iff]
    unfold executeRemoveAsk
    rw [unit_iff nonpayable_ok, unit_iff owner_iff, opt_iff, some_iff (f := fun y => _)]
    refine drop_valid fun h => ?_
    obtain ⟨a, ha⟩ := Option.ne_none_iff_exists'.mp h.2.2
    exact va ha
  | updateAskPrice c t x =>
    simp only [execute, Accepts]
    rw [valid_iff]
    unfold executeUpdateAskPrice
    simp only [unit_iff nonpayable_ok, unit_iff owner_iff, unit_iff price_iff, opt_iff, unit_iff ensure_ok, done_iff]
    constructor
    · rintro ⟨_, h1, h2, ⟨h3, h4, h5⟩, a, ha, h6, h7⟩
      exact ⟨h1, h2, h3, h4, h5, a, ha, h6, by omega⟩
    · rintro ⟨h1, h2, h3, h4, h5, a, ha, h6, h7⟩
      exact ⟨va ha, h1, h2, ⟨h3, h4, h5⟩, a, ha, h6, by omega⟩
  | setBid c t e ty f fee =>
    simp only [execute, Accepts]
    rw [valid_iff, maybe_iff]
    constructor
    · rintro ⟨h1, h2, h3⟩; exact (setBid_iff hr hfit.funds h1 h2).mp h3
    · intro h; exact ⟨h.1, h.2.1, (setBid_iff hr hfit.funds h.1 h.2.1).mpr h⟩
  | buyNow c t e f fee =>
    simp only [execute, Accepts]
    rw [valid_iff, maybe_iff]
    constructor
    · rintro ⟨h1, h2, h3⟩; exact (setBid_iff hr hfit.funds h1 h2).mp h3
    · intro h; exact ⟨h.1, h.2.1, (setBid_iff hr hfit.funds h.1 h.2.1).mpr h⟩
  | buyFor c t e f fee x =>
    simp only [execute, Accepts]
    rw [valid_iff, maybe_iff, valid_iff]
    constructor
    · rintro ⟨h1, h2, h4, h3⟩; exact ⟨(setBid_iff hr hfit.funds h1 h2).mp h3, h4⟩
    · rintro ⟨h, h4⟩; exact ⟨h.1, h.2.1, h4, (setBid_iff hr hfit.funds h.1 h.2.1).mpr h⟩
  | removeBid c t =>
    simp only [execute, Accepts]
    rw [valid_iff]
    unfold executeRemoveBid
    rw [unit_iff nonpayable_ok, opt_iff, some_iff (f := fun y => _)]
    refine drop_valid fun h => ?_
    obtain ⟨a, ha⟩ := Option.ne_none_iff_exists'.mp h.2
    exact vb ha
  | acceptBid c t b f =>
    simp only [execute, Accepts]
    rw [valid_iff, valid_iff, maybe_iff]
    unfold executeAcceptBid
    simp only [unit_iff nonpayable_ok, unit_iff owner_iff, unit_iff started_iff, opt_iff, unit_iff ensure_ok]
    constructor
    · rintro ⟨_, h1, h2, h3, h4, h5, o, ho, h6, h7⟩
      exact ⟨h3, h4, h5, h1, h2, o, ho, by omega, (CanSplit.congr (by rfl)).mp ((sale_iff (hfit.bids _ _ ho)).mp h7)⟩
    · rintro ⟨h3, h4, h5, h1, h2, o, ho, h6, h7⟩
      exact ⟨vb ho, h1, h2, h3, h4, h5, o, ho, by omega, (sale_iff (hfit.bids _ _ ho)).mpr ((CanSplit.congr (by rfl)).mpr h7)⟩
  | rejectBid c t b =>
    simp only [execute, Accepts]
    rw [valid_iff, valid_iff]
    unfold executeRejectBid
    rw [unit_iff nonpayable_ok, unit_iff owner_iff, opt_iff, some_iff (f := fun y => _)]
    constructor
    · rintro ⟨_, h1, h2, h3, h4⟩; exact ⟨h2, h3, h1, h4⟩
    · rintro ⟨h2, h3, h1, h4⟩
      obtain ⟨a, ha⟩ := Option.ne_none_iff_exists'.mp h4
      exact ⟨vb ha, h1, h2, h3, h4⟩
  | setCollectionBid c e fee =>
    simp only [execute, Accepts]
    rw [valid_iff]
    unfold executeSetCollectionBid
    rw [pay_iff]
    simp only [unit_iff ensure_ok, unit_iff range_iff, unit_iff fee_iff, done_iff]
    constructor
    · rintro ⟨h1, n, h2, h3, h4, h5, h6⟩; exact ⟨h1, h6, h5, n, h2, h3, h4⟩
    · rintro ⟨h1, h6, h5, n, h2, h3, h4⟩; exact ⟨h1, n, h2, h3, h4, h5, h6⟩
  | removeCollectionBid c =>
    simp only [execute, Accepts]
    rw [valid_iff]
    unfold executeRemoveCollectionBid
    rw [unit_iff nonpayable_ok, opt_iff, some_iff (f := fun y => _)]
    refine drop_valid fun h => ?_
    obtain ⟨a, ha⟩ := Option.ne_none_iff_exists'.mp h.2
    exact vc ha
  | acceptCollectionBid c t b f =>
    simp only [execute, Accepts]
    rw [valid_iff, valid_iff, maybe_iff]
    unfold executeAcceptCollectionBid
    simp only [unit_iff nonpayable_ok, unit_iff owner_iff, unit_iff started_iff, opt_iff, unit_iff ensure_ok]
    constructor
    · rintro ⟨_, h1, h2, h3, h4, h5, o, ho, h6, h7⟩
      exact ⟨h3, h4, h5, h1, h2, o, ho, by omega, (CanSplit.congr (by rfl)).mp ((sale_iff (hfit.cbids _ _ ho)).mp h7)⟩
    · rintro ⟨h3, h4, h5, h1, h2, o, ho, h6, h7⟩
      exact ⟨vc ho, h1, h2, h3, h4, h5, o, ho, by omega, (sale_iff (hfit.cbids _ _ ho)).mpr ((CanSplit.congr (by rfl)).mpr h7)⟩
  | syncAsk c t =>
    simp only [execute, Accepts]
    rw [valid_iff]
    unfold executeSyncAsk onlyOperator
    simp only [unit_iff nonpayable_ok, opt_iff, unit_iff ensure_ok, done_iff]
    exact drop_valid fun h => by obtain ⟨_, _, a, ha, _⟩ := h; exact va ha
  | removeStaleAsk c t =>
    simp only [execute, Accepts]
    rw [valid_iff]
    unfold executeRemoveStaleAsk onlyOperator
    simp only [unit_iff nonpayable_ok, opt_iff, unit_iff ensure_ok, done_iff]
    rw [drop_valid fun h => by obtain ⟨_, _, a, ha, _⟩ := h; exact va ha]
    refine and_congr_right fun _ => and_congr_right fun _ => exists_congr fun a => and_congr_right fun _ => ?_
    cases h1 : ctx.q.ownerOf c (tokStr t) <;> cases h2 : ctx.q.approval c (tokStr t) <;> simp
  | removeStaleBid c t b =>
    simp only [execute, Accepts]
    rw [valid_iff, valid_iff]
    unfold executeRemoveStaleBid onlyOperator
    simp only [unit_iff nonpayable_ok, opt_iff, unit_iff ensure_ok, unit_iff (stale_iff hfit.now), ok_exists, mulFloor_ok, subChk_ok]
    constructor
    · rintro ⟨_, h1, h2, h3, o, ho, h4, n, ⟨h5, rfl⟩, _⟩
      exact ⟨h2, h3, h1, o, ho, h4, Nat.lt_of_le_of_lt h5 (by decide)⟩
    · rintro ⟨h2, h3, h1, o, ho, h4, h5⟩
      exact ⟨vb ho, h1, h2, h3, o, ho, h4, _, ⟨Nat.le_pred_of_lt h5, rfl⟩, _, ⟨refund_le hr.wf.params _, rfl⟩, _, rfl⟩
  | removeStaleCollectionBid c b =>
    simp only [execute, Accepts]
    rw [valid_iff, valid_iff]
    unfold executeRemoveStaleCollectionBid onlyOperator
    simp only [unit_iff nonpayable_ok, opt_iff, unit_iff ensure_ok, unit_iff (stale_iff hfit.now), ok_exists, mulFloor_ok, subChk_ok]
    constructor
    · rintro ⟨_, h1, h2, h3, o, ho, h4, n, ⟨h5, rfl⟩, _⟩
      exact ⟨h2, h3, h1, o, ho, h4, Nat.lt_of_le_of_lt h5 (by decide)⟩
    · rintro ⟨h2, h3, h1, o, ho, h4, h5⟩
      exact ⟨vc ho, h1, h2, h3, o, ho, h4, _, ⟨Nat.le_pred_of_lt h5, rfl⟩, _, ⟨refund_le hr.wf.params _, rfl⟩, _, rfl⟩

namespace Sample
theorem fits6 (n : Nat) (hn : n < 10^9) (funds : List Coin) (hf : ∀ c ∈ funds, c.amount < 2^128) : Fits (ctx n) s6 funds where
  now := by
    show n * NSs < 2^64
    unfold NSs
    omega
  funds := hf
  bids k b h := by
    have h1 : ∀ x ∈ s6.bids.l, x.2.price < 2^128 := by decide +kernel
    exact h1 (k, b) (AMap.mem_iff.mpr h)
  cbids k b h := by
    have h1 : ∀ x ∈ s6.cbids.l, x.2.price < 2^128 := by decide +kernel
    exact h1 (k, b) (AMap.mem_iff.mpr h)

/-- carol can buy for 101 -/
example := (C160_v1 r6 (fits6 1002 (by decide) (us 101) (by decide)) buyMsg).mp ⟨_, run_eq (sender := carol) (by decide +kernel)⟩
/-- and not for 102 -/
example : ¬ Accepts P (ctx 1002) s6 carol (us 102) buyMsg := by
  rw [← C160_v1 r6 (fits6 1002 (by decide) (us 102) (by decide)) buyMsg]
  rintro ⟨r, hr⟩
  have : ok (ctx 1002) carol (us 102) buyMsg s6 = false := by decide +kernel
  rw [ok, hr] at this
  cases this
/-- alice can accept bob's bid, and bob take it back -/
example := (C160_v1 r6 (fits6 1002 (by decide) [] (by decide)) (.acceptBid coll 1 bob none)).mp ⟨_, run_eq (sender := alice) (by decide +kernel)⟩
example : Accepts P (ctx 1002) s6 bob [] (.removeBid coll 1) := ⟨rfl, by decide +kernel⟩
end Sample

end
end Verif.V1

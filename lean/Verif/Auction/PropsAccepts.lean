/-
Reserve auctions: exactly which calls are accepted: C160.
-/
import Verif.Auction.PropsLive

namespace Verif.Auction
open Verif Spec

section
variable {p : Params} {me : Addr}

namespace Spec

/-- Optional addresses are well-formed. -/
def ValidOpt (p : Params) (o : Option Bytes) : Prop := ∀ x, o = some x → p.valid x = true

/-- The reserve price is in a denom that is allowed, and not below the minimum set for it. -/
def ReserveOk (s : State) (r : Coin) : Prop := ∃ m, s.minReserve.get? r.denom = some m ∧ m ≤ r.amount

/-- The end strictly inside a halt. -/
def Paused (s : State) (e : Nat) : Prop := ∃ w ∈ s.windows, w.start < sec e ∧ sec e < w.stop

/-- The calls that are accepted. The checks of the library are named where they are made. -/
def Accepts (p : Params) (ctx : Ctx) (s : State) (sender : Addr) (funds : List Coin) : Exec → Prop
  | .create c t r d rec => p.valid c = true ∧ ValidOpt p rec ∧ p.lib.onlyOwner ctx sender c t = .ok () ∧
    p.lib.hasApproval ctx c t = .ok () ∧ p.lib.onlyTradable ctx c = .ok () ∧ s.auctions.get? (c, t) = none ∧ ReserveOk s r ∧
    s.config.minDuration ≤ d ∧ d ≤ s.config.maxDuration ∧
    (s.config.createFee.amount = 0 ∧ funds = [] ∨
      s.config.createFee.amount ≠ 0 ∧ ∃ x ∈ funds, x.denom = s.config.createFee.denom ∧ s.config.createFee.amount ≤ x.amount)
  | .updateReserve c t r => funds = [] ∧ ReserveOk s r ∧
    ∃ a, s.auctions.get? (c, t) = some a ∧ a.seller = sender ∧ a.highBid = none
  | .cancel c t => funds = [] ∧ ∃ a, s.auctions.get? (c, t) = some a ∧ a.seller = sender ∧ a.highBid = none
  | .bid c t => ∃ a n, s.auctions.get? (c, t) = some a ∧ a.seller ≠ sender ∧ funds = [⟨a.reserve.denom, n⟩] ∧ 0 < n ∧
    match a.highBid, a.endTime with
    | some b, some e => raised b.coin.amount s.config.minBidIncrement ≤ n ∧ sec ctx.time < sec e ∧
      (sec e < sec ctx.time + s.config.extendDuration → ctx.time + s.config.extendDuration * 10^9 < 2^64)
    | _, _ => a.reserve.amount ≤ n ∧ ctx.time + a.duration * 10^9 < 2^64
  | .settle c t => funds = [] ∧ ∃ a e, s.auctions.get? (c, t) = some a ∧ a.endTime = some e ∧ e ≤ ctx.time ∧
    (Paused s e ∧ ctx.time + s.config.haltPostpone * 10^9 < 2^64 ∨
      ¬ Paused s e ∧ ∃ b roy pay, a.highBid = some b ∧ p.lib.royalties ctx.q c = .ok roy ∧
        p.lib.payout b.coin (a.recipient.getD a.seller) s.config.fairBurn s.config.tradingFee roy = .ok pay)

/-- Amounts have 128 bits; no denom is sent twice. -/
structure Fits (funds : List Coin) : Prop where
  small : ∀ c ∈ funds, c.amount < 2^128
  once : (funds.map Coin.denom).Nodup
end Spec

theorem ok_exists {α : Type} {x : Res α} {f : α → Out} : (∃ r, (x >>= f) = .ok r) ↔ ∃ y, x = .ok y ∧ ∃ r, f y = .ok r := by
  cases x with
  | error e =>
    constructor
    · rintro ⟨r, h⟩; cases h
    · rintro ⟨r, h, _⟩; cases h
  | ok y =>
    refine ⟨fun h => ⟨y, rfl, h⟩, ?_⟩
    rintro ⟨z, h, h2⟩
    cases h
    exact h2

theorem unit_iff {x : Res Unit} {P : Prop} (h : x = .ok () ↔ P) {f : Unit → Out} :
    (∃ r, (x >>= f) = .ok r) ↔ P ∧ ∃ r, f () = .ok r := by
  rw [ok_exists]
  constructor
  · rintro ⟨_, h1, h2⟩; exact ⟨h.mp h1, h2⟩
  · rintro ⟨h1, h2⟩; exact ⟨(), h.mpr h1, h2⟩

theorem valid_iff {a : Bytes} {f : Addr → Out} : (∃ r, (addrValidate p a >>= f) = .ok r) ↔ p.valid a = true ∧ ∃ r, f a = .ok r := by
  rw [ok_exists]
  constructor
  · rintro ⟨y, h1, h2⟩; obtain ⟨h3, rfl⟩ := addrValidate_ok.mp h1; exact ⟨h3, h2⟩
  · rintro ⟨h1, h2⟩; exact ⟨a, addrValidate_ok.mpr ⟨h1, rfl⟩, h2⟩

theorem maybe_iff {a : Option Bytes} {f : Option Addr → Out} :
    (∃ r, (maybeAddr p a >>= f) = .ok r) ↔ ValidOpt p a ∧ ∃ r, f a = .ok r := by
  rw [ok_exists]
  constructor
  · rintro ⟨y, h1, h2⟩; obtain ⟨rfl, h3⟩ := maybeAddr_ok h1; exact ⟨h3, h2⟩
  · rintro ⟨h1, h2⟩
    refine ⟨a, ?_, h2⟩
    cases a with
    | none => rfl
    | some y => simp [maybeAddr, addrValidate, h1 y rfl, ok_bind]

theorem opt_iff {α : Type} {o : Option α} {e : Err} {f : α → Out} :
    (∃ r, (orErr o e >>= f) = .ok r) ↔ ∃ y, o = some y ∧ ∃ r, f y = .ok r := by
  rw [ok_exists]
  simp only [orErr_ok]

theorem done_iff {P : Prop} {x : State × List Msg} : (P ∧ ∃ r, (.ok x : Out) = .ok r) ↔ P := ⟨fun h => h.1, fun h => ⟨h, _, rfl⟩⟩

theorem reserve_iff {s : State} {r : Coin} : validateReserve s r = .ok () ↔ ReserveOk s r := by
  refine ⟨validateReserve_ok, ?_⟩
  rintro ⟨m, h1, h2⟩
  simp only [validateReserve, h1]
  exact ensure_ok.mpr h2

theorem has_iff {funds : List Coin} {c : Coin} (h : (funds.map Coin.denom).Nodup) :
    hasCoins funds c = true ↔ ∃ x ∈ funds, x.denom = c.denom ∧ c.amount ≤ x.amount := by
  induction funds with
  | nil => simp [hasCoins]
  | cons y l ih =>
    simp only [List.map_cons, List.nodup_cons] at h
    have ih := ih h.2
    by_cases e : y.denom = c.denom
    · constructor
      · intro h1
        simp only [hasCoins, List.find?_cons, e, decide_true, decide_eq_true_eq] at h1
        exact ⟨y, List.mem_cons_self, e, h1⟩
      · rintro ⟨x, hx, e1, e2⟩
        simp only [hasCoins, List.find?_cons, e, decide_true, decide_eq_true_eq]
        rcases List.mem_cons.mp hx with rfl | hx
        · exact e2
        · exact absurd (List.mem_map.mpr ⟨x, hx, e1.trans e.symm⟩) h.1
    · have h1 : hasCoins (y :: l) c = hasCoins l c := by simp only [hasCoins, List.find?_cons, e, decide_false]
      rw [h1, ih]
      constructor
      · rintro ⟨x, hx, h2⟩; exact ⟨x, List.mem_cons_of_mem _ hx, h2⟩
      · rintro ⟨x, hx, h2⟩
        rcases List.mem_cons.mp hx with rfl | hx
        · exact absurd h2.1 e
        · exact ⟨x, hx, h2⟩

theorem halt_iff {s : State} {e : Nat} : inHalt s.windows (secs e) = true ↔ Paused s e := by
  simp only [inHalt, List.any_eq_true, decide_eq_true_eq, Paused]
  rfl

/-! ### C160 -/

/-- In every reachable state a call succeeds if and only if it is one of those the specification lists. -/
theorem C160_auction {ctx : Ctx} {s : State} (hr : Reach p me s) {sender : Addr} {funds : List Coin} (hfit : Fits funds) (m : Exec) :
    (∃ r, execute p ctx sender funds m s = .ok r) ↔ Accepts p ctx s sender funds m := by
  have va : ∀ {c : Addr} {t : Bytes} {a : Auction}, s.auctions.get? (c, t) = some a → p.valid c = true := by
    intro c t a h
    have hg := hr.wf.auctions _ _ h
    have hk := hg.key
    cases hk
    exact hg.valid
  have hfirst : ∀ {c : Addr} {t : Bytes} {a : Auction}, s.auctions.get? (c, t) = some a → (a.firstBid = none ↔ a.highBid = none) := by
    intro c t a h
    have hg := hr.wf.auctions _ _ h
    rw [hg.first, hg.high]
  have e1 : NS = 10^9 := rfl
  have e2 : U64MAX = 2^64 - 1 := rfl
  cases m with
  | create c t r d rec =>
    simp only [execute, Accepts]
    rw [valid_iff, maybe_iff]
    refine and_congr_right fun _ => and_congr_right fun _ => ?_
    unfold executeCreate
    rw [unit_iff Iff.rfl, unit_iff Iff.rfl, unit_iff ensure_ok, unit_iff Iff.rfl, unit_iff reserve_iff, unit_iff ensure_ok]
    have hfee : (∃ z, ((if s.config.createFee.amount = 0 then nonpayable funds >>= fun _ => .ok []
        else ensure (hasCoins funds s.config.createFee = true) .wrongFee >>= fun _ => .ok [.fairBurn [s.config.createFee]]) >>= fun fee =>
        (.ok ({ s with auctions := s.auctions.insert (c, t) ⟨c, t, sender, r, d, none, rec, none, none⟩ }, fee ++ [.nft c t ctx.self]) : Out)) = .ok z) ↔
        (s.config.createFee.amount = 0 ∧ funds = [] ∨
          s.config.createFee.amount ≠ 0 ∧ ∃ x ∈ funds, x.denom = s.config.createFee.denom ∧ s.config.createFee.amount ≤ x.amount) := by
      by_cases hz : s.config.createFee.amount = 0
      · simp only [hz, if_true, bind_assoc, ok_bind]
        rw [unit_iff nonpayable_ok]
        simp
      · simp only [hz, if_false, bind_assoc, ok_bind]
        rw [unit_iff ensure_ok, has_iff hfit.once]
        simp [hz]
    rw [hfee]
    constructor
    · rintro ⟨h1, h2, h3, h4, h5, h6, h7⟩; exact ⟨h1, h2, h4, h3, h5, h6.1, h6.2, h7⟩
    · rintro ⟨h1, h2, h4, h3, h5, h6, h8, h7⟩; exact ⟨h1, h2, h3, h4, h5, ⟨h6, h8⟩, h7⟩
  | updateReserve c t r =>
    simp only [execute, Accepts]
    rw [valid_iff]
    unfold executeUpdateReserve
    simp only [unit_iff nonpayable_ok, opt_iff, unit_iff ensure_ok, unit_iff reserve_iff, done_iff]
    constructor
    · rintro ⟨_, h1, a, ha, h2, h3, h4⟩; exact ⟨h1, h4, a, ha, h2, (hfirst ha).mp h3⟩
    · rintro ⟨h1, h4, a, ha, h2, h3⟩; exact ⟨va ha, h1, a, ha, h2, (hfirst ha).mpr h3, h4⟩
  | cancel c t =>
    simp only [execute, Accepts]
    rw [valid_iff]
    unfold executeCancel
    simp only [unit_iff nonpayable_ok, opt_iff, unit_iff ensure_ok, done_iff]
    constructor
    · rintro ⟨_, h1, a, ha, h2, h3⟩; exact ⟨h1, a, ha, h2, (hfirst ha).mp h3⟩
    · rintro ⟨h1, a, ha, h2, h3⟩; exact ⟨va ha, h1, a, ha, h2, (hfirst ha).mpr h3⟩
  | bid c t =>
    constructor
    · rintro ⟨⟨s', msgs⟩, h⟩
      cases execute_eff h with
      | bid1 _ _ a n m e hv ha hs hfunds hpos hm hge hend hb hov he =>
        have hh := (hfirst ha).mp hb
        refine ⟨a, n, ha, hs, hfunds, hpos, ?_⟩
        simp only [Auction.minBid, hh, Except.ok.injEq] at hm
        simp only [hh]
        rw [e2] at hov
        rw [he, e1] at hov
        exact ⟨by omega, by omega⟩
      | bid2 _ _ a n m f e e' b hv ha hs hfunds hpos hm hge hend hb hh hz he he' =>
        refine ⟨a, n, ha, hs, hfunds, hpos, ?_⟩
        simp only [Auction.minBid, hh, bind_ok, u128_ok, mulCeil_ok] at hm
        obtain ⟨_, ⟨_, rfl⟩, _, rfl⟩ := hm
        simp only [hh, he]
        refine ⟨by rw [raised_ceil]; exact hge, hend, fun h => ?_⟩
        change secs e < secs ctx.time + _ at h
        rw [if_pos (by omega)] at he'
        rw [e1, e2] at he'
        omega
    · rintro ⟨a, n, ha, hs, rfl, hpos, hcase⟩
      have hg := hr.wf.auctions _ _ ha
      have hv := va ha
      have hn : n < 2^128 := hfit.small _ List.mem_cons_self
      have hone : ONE + s.config.minBidIncrement ≤ U128MAX := by
        have : s.config.minBidIncrement < ONE := (validate_ok hr.wf.config).2.1
        have h1 : ONE + ONE ≤ U128MAX := by decide
        omega
      obtain ⟨m, hm, hmn⟩ : ∃ m, a.minBid s.config.minBidIncrement = .ok m ∧ m ≤ n := by
        unfold Auction.minBid
        cases hb : a.highBid with
        | none => simp only [hb] at hcase; exact ⟨_, rfl, hcase.1⟩
        | some b =>
          cases he : a.endTime with
          | none => have := hg.high.mpr he; rw [hb] at this; cases this
          | some e =>
            simp only [hb, he] at hcase
            have h3 := hcase.1
            rw [raised_ceil] at h3
            refine ⟨_, ?_, h3⟩
            rw [bind_ok]
            exact ⟨_, u128_ok.mpr ⟨hone, rfl⟩, mulCeil_ok.mpr ⟨Nat.le_trans h3 (Nat.le_of_lt_succ hn), rfl⟩⟩
      have hge : hasCoins [⟨a.reserve.denom, n⟩] ⟨a.reserve.denom, m⟩ = true := hasCoins_single.mpr ⟨rfl, hmn⟩
      have hend : ∀ e, a.endTime = some e → secs ctx.time < secs e := by
        intro e he
        cases hb : a.highBid with
        | none => rw [hg.high.mp hb] at he; cases he
        | some b => simp only [hb, he] at hcase; exact hcase.2.1
      obtain ⟨r, hr2⟩ : ∃ r, bidTimes ctx a s.config = .ok r := by
        unfold bidTimes
        cases hb : a.highBid with
        | none =>
          simp only [(hfirst ha).mpr hb]
          simp only [hb] at hcase
          exact ⟨_, bind_ok.mpr ⟨_, plusSeconds_ok.mpr ⟨by rw [e1, e2]; omega, rfl⟩, rfl⟩⟩
        | some b =>
          cases hf : a.firstBid with
          | none => have := (hfirst ha).mp hf; rw [hb] at this; cases this
          | some f =>
            cases he : a.endTime with
            | none => have := hg.high.mpr he; rw [hb] at this; cases this
            | some e =>
              simp only [hb, he] at hcase
              have hp := (hg.coin b hb).2.1
              have hlt := hend e he
              obtain ⟨e', he'⟩ : ∃ e', (if secs e - secs ctx.time < s.config.extendDuration then
                  plusSeconds ctx.time s.config.extendDuration else .ok e) = .ok e' := by
                split
                · refine ⟨_, plusSeconds_ok.mpr ⟨?_, rfl⟩⟩
                  have := hcase.2.2 (by change secs e < secs ctx.time + _; omega)
                  rw [e1, e2]; omega
                · exact ⟨_, rfl⟩
              refine ⟨(f, e', [.send b.bidder [b.coin]]), ?_⟩
              simp only [bind_ok, orErr_ok]
              exact ⟨b, rfl, (), ensure_ok.mpr (by omega), e, rfl, _, subChk_ok.mpr ⟨Nat.le_of_lt hlt, rfl⟩, e', he', rfl⟩
      refine ⟨({ s with auctions := s.auctions.insert a.key { a with
        firstBid := some r.1, endTime := some r.2.1, highBid := some ⟨⟨a.reserve.denom, n⟩, sender⟩ } }, r.2.2), ?_⟩
      simp only [execute, executeBid, bind_ok, addrValidate_ok, ensure_ok, orErr_ok]
      exact ⟨c, ⟨hv, rfl⟩, a, ha, n, mustPay_ok.mpr ⟨rfl, hpos⟩, (), hs, m, hm, (), hge, (), hend, r, hr2, rfl⟩
  | settle c t =>
    simp only [execute, Accepts]
    rw [valid_iff]
    unfold executeSettle
    rw [unit_iff nonpayable_ok, opt_iff]
    have key : ∀ a, s.auctions.get? (c, t) = some a → ((∃ r, settleAuction p ctx a s.config s.windows [] s = .ok r) ↔
        ∃ e, a.endTime = some e ∧ e ≤ ctx.time ∧ (Paused s e ∧ ctx.time + s.config.haltPostpone * 10^9 < 2^64 ∨
      ¬ Paused s e ∧ ∃ b roy pay, a.highBid = some b ∧ p.lib.royalties ctx.q c = .ok roy ∧
        p.lib.payout b.coin (a.recipient.getD a.seller) s.config.fairBurn s.config.tradingFee roy = .ok pay)) := by
      intro a ha
      have hk := (hr.wf.auctions _ _ ha).key
      have hc : a.collection = c := congrArg Prod.fst hk
      unfold settleAuction
      cases he : a.endTime with
      | none => simp
      | some e =>
        simp only
        rw [unit_iff ensure_ok]
        simp only [Option.some.injEq, exists_eq_left']
        refine and_congr_right fun _ => ?_
        by_cases hh : inHalt s.windows (secs e) = true
        · have hh' := halt_iff.mp hh
          simp only [hh, if_true, hh', true_and, not_true_eq_false, false_and, or_false]
          rw [ok_exists]
          simp only [plusSeconds_ok, e1, e2]
          constructor
          · rintro ⟨_, ⟨h, _⟩, _⟩; omega
          · intro h; exact ⟨_, ⟨by omega, rfl⟩, _, rfl⟩
        · rw [if_neg hh]
          have hh' : ¬ Paused s e := fun h => hh (halt_iff.mpr h)
          simp only [hh', false_and, not_false_eq_true, true_and, false_or]
          rw [opt_iff, hc]
          simp only [ok_exists, Auction.fundsRecipient]
          constructor
          · rintro ⟨b, hb, roy, h1, pay, h2, _⟩; exact ⟨b, roy, pay, hb, h1, h2⟩
          · rintro ⟨b, roy, pay, hb, h1, h2⟩; exact ⟨b, hb, roy, h1, pay, h2, _, rfl⟩
    constructor
    · rintro ⟨_, h1, a, ha, h2⟩
      obtain ⟨e, h3⟩ := (key a ha).mp h2
      exact ⟨h1, a, e, ha, h3⟩
    · rintro ⟨h1, a, e, ha, h3⟩
      exact ⟨va ha, h1, a, ha, (key a ha).mpr ⟨e, h3⟩⟩

namespace Sample
/-- carol outbids bob by 20 and could not by 4 -/
example := (C160_auction r3 ⟨by decide, by decide⟩ (.bid coll tok)).mp
  ⟨_, run_eq (c := ctx 1040500) (sender := carol) (funds := [⟨ust, 120⟩]) (by decide +kernel)⟩
example : ¬ Accepts P (ctx 1040500) s3 carol [⟨ust, 104⟩] (.bid coll tok) := by
  rw [← C160_auction r3 ⟨by decide, by decide⟩ (.bid coll tok)]
  rintro ⟨r, hr⟩
  have : ok (ctx 1040500) carol [⟨ust, 104⟩] (.bid coll tok) s3 = false := by decide +kernel
  rw [ok, hr] at this
  cases this
/-- bob settles -/
example := (C160_auction r4 ⟨by decide, by decide⟩ (.settle coll tok)).mp
  ⟨_, run_eq (c := ctx 1080000) (sender := bob) (funds := []) (by decide +kernel)⟩
example := (C160_auction r1 ⟨by decide, by decide⟩ (.create coll tok ⟨ust, 100⟩ 60 none)).mp
  ⟨_, run_eq (c := ctx 1000000 (some alice)) (sender := alice) (funds := [⟨ust, 5⟩]) (by decide +kernel)⟩
end Sample

end
end Verif.Auction

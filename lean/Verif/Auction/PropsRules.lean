/-
Reserve auctions: the rules of an auction while it runs: C159.
-/
import Verif.Auction.PropsLive

namespace Verif.Auction
open Verif Spec

section
variable {p : Params} {me : Addr} {honest : Addr → Prop}

namespace Spec
/-- What becomes of the auction of token `k`, with the messages of the response. -/
def fate (k : Key) (x : Res (State × List Msg)) : Res (Option Auction × List Msg) := x.map (fun r => (r.1.auctions.get? k, r.2))
end Spec

theorem fate_insert {s : State} {k : Key} {a a' : Auction} (hk : a.key = k) (msgs : List Msg) :
    fate k (.ok ({ s with auctions := s.auctions.insert a.key a' }, msgs)) = .ok (some a', msgs) := by
  subst hk
  simp only [fate, Except.map, AMap.get?_insert, if_true]

theorem fate_bind {α : Type} {k : Key} {x : Res α} {f g : α → Res (State × List Msg)} (h : ∀ y, x = .ok y → fate k (f y) = fate k (g y)) :
    fate k (x >>= f) = fate k (x >>= g) := by
  cases x with
  | error e => rfl
  | ok y => exact h y rfl

/-! ### C159 -/

/-- While an auction stands unchanged, a bid for its token (same caller, same coins, same time) has the same result at any later
point as at an earlier one. -/
def C159_statement : Prop := ∀ (p : Params) (me : Addr) (s1 s2 : State), Reach p me s1 → After p me s1 s2 →
  ∀ (c : Addr) (t : Bytes) (a : Auction), s1.auctions.get? (c, t) = some a → s2.auctions.get? (c, t) = some a →
  ∀ (ctx : Ctx) (sender : Addr) (funds : List Coin),
  fate (c, t) (execute p ctx sender funds (.bid c t) s1) = fate (c, t) (execute p ctx sender funds (.bid c t) s2)

/-- The result of a bid is fixed by the auction and three things: the least amount, and the times. -/
theorem bid_same {s1 s2 : State} {c : Addr} {t : Bytes} {a : Auction} (hk : a.key = (c, t))
    (h1 : s1.auctions.get? (c, t) = some a) (h2 : s2.auctions.get? (c, t) = some a) {ctx : Ctx} {sender : Addr} {funds : List Coin}
    (hm : a.minBid s1.config.minBidIncrement = a.minBid s2.config.minBidIncrement)
    (ht : bidTimes ctx a s1.config = bidTimes ctx a s2.config) :
    fate (c, t) (execute p ctx sender funds (.bid c t) s1) = fate (c, t) (execute p ctx sender funds (.bid c t) s2) := by
  simp only [execute]
  refine fate_bind fun x hx => ?_
  obtain ⟨_, rfl⟩ := addrValidate_ok.mp hx
  simp only [executeBid, h1, h2, orErr, ok_bind, hm, ht]
  refine fate_bind fun _ _ => fate_bind fun _ _ => fate_bind fun _ _ => fate_bind fun _ _ => fate_bind fun _ _ => fate_bind fun _ _ => ?_
  rw [fate_insert hk, fate_insert hk]

/-- What holds: the first bid depends on nothing but the auction. -/
theorem C159_partial_first {s1 s2 : State} (hr : Reach p me s1) {c : Addr} {t : Bytes} {a : Auction}
    (h1 : s1.auctions.get? (c, t) = some a) (h2 : s2.auctions.get? (c, t) = some a) (hb : a.highBid = none)
    {ctx : Ctx} {sender : Addr} {funds : List Coin} :
    fate (c, t) (execute p ctx sender funds (.bid c t) s1) = fate (c, t) (execute p ctx sender funds (.bid c t) s2) := by
  have hg := hr.wf.auctions _ _ h1
  have hf : a.firstBid = none := hg.first.mpr (hg.high.mp hb)
  exact bid_same hg.key h1 h2 (by simp only [Auction.minBid, hb]) (by simp only [bidTimes, hf])

/-- What holds: later bids depend on two of the settings besides. Missing: these settings are read when the bid is made, not when
the auction was created or the first bid was made, and governance may change them in between. -/
theorem C159_partial_settings {s1 s2 : State} (hr : Reach p me s1) {c : Addr} {t : Bytes} {a : Auction}
    (h1 : s1.auctions.get? (c, t) = some a) (h2 : s2.auctions.get? (c, t) = some a)
    (hi : s1.config.minBidIncrement = s2.config.minBidIncrement) (he : s1.config.extendDuration = s2.config.extendDuration)
    {ctx : Ctx} {sender : Addr} {funds : List Coin} :
    fate (c, t) (execute p ctx sender funds (.bid c t) s1) = fate (c, t) (execute p ctx sender funds (.bid c t) s2) :=
  bid_same (hr.wf.auctions _ _ h1).key h1 h2 (by rw [hi]) (by simp only [bidTimes, he])

/-- What holds: whatever governance does, twice the standing bid is enough. -/
theorem C159_partial_double (hl : LibOk p.lib) {w : World State} (h : Run p me honest (w, [])) {q : Queries}
    (hq : (sys p me honest).queriesOk w q) {coll tok : Bytes} {a : Auction} {b : HighBid} {sender : Addr} {n : Nat}
    (ha : w.st.auctions.get? (coll, tok) = some a) (hb : a.highBid = some b) (hne : sender ≠ me) (hs : sender ≠ a.seller)
    (hbal : n ≤ w.bank sender a.reserve.denom) (hn : n < 2^128) (h2 : 2 * b.coin.amount ≤ n)
    (hend : ∀ e, a.endTime = some e → sec w.time < sec e)
    (hov : w.time + (max a.duration w.st.config.extendDuration) * 1000000000 < 2^64) :
    ∃ s' msgs a', execute p ((sys p me honest).ctx w q) sender [⟨a.reserve.denom, n⟩] (.bid coll tok) w.st = .ok (s', msgs) ∧
      s'.auctions.get? (coll, tok) = some a' ∧ a'.highBid = some ⟨⟨a.reserve.denom, n⟩, sender⟩ := by
  have hr := Spec.Run.reach h
  have hg := hr.wf.auctions _ _ ha
  have hpos := (hg.coin b hb).2.1
  have hinc : w.st.config.minBidIncrement < 10^18 := (validate_ok hr.wf.config).2.1
  obtain ⟨s', msgs, h1, w', a', _, _, h3, h4, _⟩ := C87_bid hl h hq ha hne hs hbal (by omega) hn (fun e => by rw [hb] at e; cases e)
    (fun b' hb' => by
      rw [hb] at hb'
      cases hb'
      refine Nat.le_trans ?_ h2
      unfold raised
      have : b.coin.amount * (10^18 + w.st.config.minBidIncrement) ≤ b.coin.amount * (2 * 10^18) :=
        Nat.mul_le_mul_left _ (by omega)
      omega) hend hov
  exact ⟨s', msgs, a', h1, h3, h4⟩

/-- What also holds: who sells, for whom, from which reserve price, and for how long is not for governance to change. -/
theorem C159_partial_sudo {s s' : State} {ctx : Ctx} {u : Update} {msgs : List Msg}
    (h : sudo p ctx (.updateParams u) s = .ok (s', msgs)) (k : Key) : s'.auctions.get? k = s.auctions.get? k := by
  simp only [sudo, updateParams, bind_ok] at h
  obtain ⟨_, _, _, _, h⟩ := h
  cases h
  rfl
end

namespace Sample
/-- governance raises the increment from 5% to 50% -/
abbrev raise : Sudo := .updateParams { minBidIncrement := some (5 * 10^17) }
def s3r : State := (srun (ctx 1000000) raise s3).1
/-- bob's auction -/
abbrev a3 : Auction := ⟨coll, tok, alice, ⟨ust, 100⟩, 60, some 1060000000000, none, some ⟨⟨ust, 100⟩, bob⟩, some 1000000000000⟩
abbrev a2 : Auction := ⟨coll, tok, alice, ⟨ust, 100⟩, 60, none, none, none, none⟩
end Sample

/-- carol's bid of 120 on top of bob's 100 is no longer accepted. -/
theorem C159_violated : ¬ C159_statement := by
  intro h
  have h1 := h Sample.P Sample.self Sample.s3 Sample.s3r Sample.r3 (.step (.refl _) (.sudo rfl (Sample.srun_eq
    (c := Sample.ctx 1000000) (m := Sample.raise) (by decide +kernel)))) Sample.coll Sample.tok Sample.a3 (by decide +kernel)
    (by decide +kernel) (Sample.ctx 1040500) Sample.carol [⟨Sample.ust, 120⟩]
  have h2 := Sample.run_eq (c := Sample.ctx 1040500) (sender := Sample.carol) (funds := [⟨Sample.ust, 120⟩])
    (m := .bid Sample.coll Sample.tok) (s := Sample.s3) (by decide +kernel)
  rw [h2] at h1
  have h3 : Sample.ok (Sample.ctx 1040500) Sample.carol [⟨Sample.ust, 120⟩] (.bid Sample.coll Sample.tok) Sample.s3r = false := by
    decide +kernel
  unfold Sample.ok at h3
  split at h3
  · cases h3
  · rename_i e he
    rw [he] at h1
    cases h1

namespace Sample
example := C159_partial_first (p := P) r2 (c := coll) (t := tok) (a := a2) (s2 := (srun (ctx 1000000) raise s2).1) (by decide +kernel)
  (by decide +kernel) rfl (ctx := ctx 1000000) (sender := bob) (funds := [⟨ust, 100⟩])
example : ok (ctx 1000000) bob [⟨ust, 100⟩] (.bid coll tok) s2 = true := by decide +kernel
example := C159_partial_settings (p := P) r3 (c := coll) (t := tok) (a := a3) (s2 := (srun (ctx 1000000) (.updateParams { tradingFee := some 7 }) s3).1)
  (by decide +kernel) (by decide +kernel) (by decide +kernel) (by decide +kernel) (ctx := ctx 1040500) (sender := carol)
  (funds := [⟨ust, 120⟩])
example := C159_partial_double libOk run4 (q := qw w4) (fun _ _ _ => rfl) (coll := coll) (tok := tok) (a := a3) (b := ⟨⟨ust, 100⟩, bob⟩)
  (sender := carol) (n := 200) (by decide +kernel) rfl (by decide) (by decide) (by decide +kernel) (by decide) (by decide)
  (by intro e h; cases h; decide +kernel) (by decide +kernel)
example := C159_partial_sudo (srun_eq (c := ctx 1000000) (m := raise) (s := s3) (by decide +kernel)) (coll, tok)
end Sample

end Verif.Auction

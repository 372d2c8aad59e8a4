/-
Reserve auctions: a bid that has been made cannot be made again: C164.
-/
import Verif.Auction.PropsLife

namespace Verif.Auction
open Verif Spec

section
variable {p : Params} {me : Addr}

/-- While an auction runs, no amount that has been bid is accepted again, nor any smaller one, from whomever it comes. -/
theorem C164_auction {s s1 s2 : State} {ctx ctx' : Ctx} {sender sender' : Addr} {funds funds' : List Coin} {coll tok : Bytes}
    {msgs : List Msg} (hr : Reach p me s) (hself : ctx.self = me) (hne : sender ≠ me)
    (h : execute p ctx sender funds (.bid coll tok) s = .ok (s1, msgs)) (ho : Open p me (coll, tok) s1 s2)
    (hle : ∀ d, amountOf d funds' ≤ amountOf d funds) : ∃ e, execute p ctx' sender' funds' (.bid coll tok) s2 = .error e := by
  cases h2 : execute p ctx' sender' funds' (.bid coll tok) s2 with
  | error e => exact ⟨e, rfl⟩
  | ok r =>
    exfalso
    obtain ⟨a, a', n, _, ha', hf, hb, _⟩ := C28_min hr h
    have hr1 : Reach p me s1 := by
      obtain ⟨c, mins, s0, hi, ha⟩ := hr
      exact ⟨c, mins, s0, hi, .step ha (.call hself hne h)⟩
    have hr2 : Reach p me s2 := by
      clear h2
      induction ho with
      | refl => exact hr1
      | step _ hs _ ih =>
        obtain ⟨c, mins, s0, hi, ha⟩ := ih
        exact ⟨c, mins, s0, hi, .step ha hs⟩
    obtain ⟨x, b, hx, hb', hd, hge⟩ := C28_history hr1 ho ha' hb
    obtain ⟨y, _, n', hy, _, hf', _, _, hlt⟩ := C28_min hr2 h2
    rw [hx] at hy
    cases hy
    obtain ⟨hd', _, hlt⟩ := hlt b hb'
    have := hle x.reserve.denom
    rw [hf, hf'] at this
    have hd2 : a.reserve.denom = x.reserve.denom := hd.trans hd'
    rw [hd2] at this
    simp [amountOf, Coin.inDenom] at this
    have hge' : n ≤ b.coin.amount := hge
    omega

end

namespace Sample
/-- bob bids 100, carol 120; 100 or less is not accepted again -/
theorem open34 : Open P self (coll, tok) s3 s4 :=
  .step (.refl _) (.call (ctx := ctx 1040500) (sender := carol) (funds := [⟨ust, 120⟩]) (m := .bid coll tok) rfl (by decide)
    (run_eq (by decide +kernel))) (by decide +kernel)
theorem bid23 : execute P (ctx 1000000) bob [⟨ust, 100⟩] (.bid coll tok) s2 =
    .ok (s3, (run (ctx 1000000) bob [⟨ust, 100⟩] (.bid coll tok) s2).2) := run_eq (by decide +kernel)
example := C164_auction r2 rfl (by decide) bid23 open34 (ctx' := ctx 1040600) (sender' := bob) (funds' := [⟨ust, 100⟩])
  (fun _ => Nat.le_refl _)
end Sample

end Verif.Auction

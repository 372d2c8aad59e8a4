/-
Auction: what settling pays, whoever settles and whenever: C166.
-/
import Verif.Auction.PropsRules

namespace Verif.Auction
open Verif Spec

/-- Two ways of ending one auction, now and later: a call, or the end-block hook. Both hand over the token. The later one makes the very
payments that the earlier one would have made: the hook within the messages about the other auctions. -/
def C166_statement : Prop := ∀ (p : Params) (me : Addr), LibOk p.lib → ∀ (s1 s2 : State), Reach p me s1 → After p me s1 s2 →
  ∀ (c : Addr) (t : Bytes) (a : Auction), s1.auctions.get? (c, t) = some a → s2.auctions.get? (c, t) = some a →
  ∀ (ctx1 ctx2 : Ctx), ctx1.q = ctx2.q → ∀ (x1 x2 : Addr) (f1 f2 : List Coin) (s1' s2' s3' : State) (m1 m2 m3 : List Msg) (to1 to2 to3 : Addr),
  execute p ctx1 x1 f1 (.settle c t) s1 = .ok (s1', m1) → .nft c t to1 ∈ m1 →
  (execute p ctx2 x2 f2 (.settle c t) s2 = .ok (s2', m2) → .nft c t to2 ∈ m2 → m2 = m1) ∧
  (sudo p ctx2 .endBlock s2 = .ok (s3', m3) → .nft c t to3 ∈ m3 → ∃ pre post, m3 = pre ++ m1 ++ post)

section
variable {p : Params} {me : Addr}

/-- The messages about an auction that is sold are fixed by the auction, the royalty and two settings. -/
theorem sold_same {s1 s2 s1' s2' : State} {q1 q2 : Queries} {t1 t2 : Nat} {k : Key} {a : Auction} {m1 m2 : List Msg} {to1 to2 : Addr}
    (h1 : Outcome p q1 s1 s1' t1 k a m1) (h2 : Outcome p q2 s2 s2' t2 k a m2) (hn1 : .nft k.1 k.2 to1 ∈ m1) (hn2 : .nft k.1 k.2 to2 ∈ m2)
    (hq : p.lib.royalties q1 k.1 = p.lib.royalties q2 k.1) (hfb : s1.config.fairBurn = s2.config.fairBurn)
    (hfee : s1.config.tradingFee = s2.config.tradingFee) : m2 = m1 := by
  cases h1 with
  | postponed _ _ _ _ _ _ _ _ hm => subst hm; cases hn1
  | sold e b roy pay he hle hw hb h hm hp hx hroy hpay =>
    cases h2 with
    | postponed _ _ _ _ _ _ _ _ hm => subst hm; cases hn2
    | sold e' b' roy' pay' he' hle' hw' hb' h' hm' hp' hx' hroy' hpay' =>
      rw [hb] at hb'; cases hb'
      rw [hq, hroy'] at hroy; cases hroy
      rw [hfb, hfee, hpay'] at hpay; cases hpay
      rw [hm, hm']

/-- What holds: so it is as long as the trading fee and the address of the fair-burn contract stay the same; it does not matter who calls,
when, and what else changes. Missing: the trading fee is read when the auction is settled, so that a change between the last bid, even the
end of the auction, and the settlement alters what the seller gets. -/
theorem C166_partial (hl : LibOk p.lib) {s1 s2 : State} (h1 : Reach p me s1) (h2 : Reach p me s2) {c : Addr} {t : Bytes} {a : Auction}
    (ha1 : s1.auctions.get? (c, t) = some a) (ha2 : s2.auctions.get? (c, t) = some a) {ctx1 ctx2 : Ctx}
    (hq : p.lib.royalties ctx1.q c = p.lib.royalties ctx2.q c) (hfb : s1.config.fairBurn = s2.config.fairBurn)
    (hfee : s1.config.tradingFee = s2.config.tradingFee) {x1 : Addr} {f1 : List Coin} {s1' : State}
    {m1 : List Msg} {to1 : Addr} (hx1 : execute p ctx1 x1 f1 (.settle c t) s1 = .ok (s1', m1)) (hn1 : .nft c t to1 ∈ m1) :
    (∀ x2 f2 s2' m2 to2, execute p ctx2 x2 f2 (.settle c t) s2 = .ok (s2', m2) → .nft c t to2 ∈ m2 → m2 = m1) ∧
    (∀ s2' m2 to2, sudo p ctx2 .endBlock s2 = .ok (s2', m2) → .nft c t to2 ∈ m2 → ∃ pre post, m2 = pre ++ m1 ++ post ∧
      (∀ to, .nft c t to ∉ pre) ∧ ∀ to, .nft c t to ∉ post) := by
  obtain ⟨_, a', ha', o1, _, _⟩ := C35_settle hl h1 hx1
  rw [ha1] at ha'; cases ha'
  refine ⟨?_, ?_⟩
  · intro x2 f2 s2' m2 to2 hx2 hn2
    obtain ⟨_, a', ha', o2, _, _⟩ := C35_settle hl h2 hx2
    rw [ha2] at ha'; cases ha'
    exact sold_same o1 o2 hn1 hn2 hq hfb hfee
  · intro s2' m2 to2 hx2 hn2
    rcases C35_batch hl h2 hx2 ha2 with ⟨_, hno⟩ | ⟨pre, m, post, e, o2, hpre, hpost⟩
    · exact absurd hn2 (hno _)
    · refine ⟨pre, post, ?_, hpre, hpost⟩
      subst e
      have hin : Msg.nft c t to2 ∈ m := by
        rcases List.mem_append.mp hn2 with h | h
        · rcases List.mem_append.mp h with h | h
          · exact absurd h (hpre _)
          · exact h
        · exact absurd h (hpost _)
      rw [sold_same o1 o2 hn1 hin hq hfb hfee]

/-- Whatever happens to the settings: as long as the auction stands unchanged, the token goes to the same account, and as many coins are paid
out in all. -/
theorem C166_partial_winner (hl : LibOk p.lib) {s1 s2 : State} (h1 : Reach p me s1) (h2 : Reach p me s2) {c : Addr} {t : Bytes} {a : Auction}
    (ha1 : s1.auctions.get? (c, t) = some a) (ha2 : s2.auctions.get? (c, t) = some a) {ctx1 ctx2 : Ctx} {x1 x2 : Addr} {f1 f2 : List Coin}
    {s1' s2' : State} {m1 m2 : List Msg} {to1 to2 : Addr} (hx1 : execute p ctx1 x1 f1 (.settle c t) s1 = .ok (s1', m1))
    (hn1 : .nft c t to1 ∈ m1) (hx2 : execute p ctx2 x2 f2 (.settle c t) s2 = .ok (s2', m2)) (hn2 : .nft c t to2 ∈ m2) :
    to1 = to2 ∧ ∀ d, paidOut d m1 = paidOut d m2 := by
  obtain ⟨_, a', ha', o1, _, _⟩ := C35_settle hl h1 hx1
  rw [ha1] at ha'; cases ha'
  obtain ⟨_, a', ha', o2, _, _⟩ := C35_settle hl h2 hx2
  rw [ha2] at ha'; cases ha'
  cases o1 with
  | postponed _ _ _ _ _ _ _ _ hm => subst hm; cases hn1
  | sold e b roy pay he hle hw hb h hm hp hx hroy hpay =>
    cases o2 with
    | postponed _ _ _ _ _ _ _ _ hm => subst hm; cases hn2
    | sold e' b' roy' pay' he' hle' hw' hb' h' hm' hp' hx' hroy' hpay' =>
      rw [hb] at hb'; cases hb'
      subst hm; subst hm'
      have pick : ∀ {pay : List Msg} {to : Addr}, (∀ m ∈ pay, IsPayment m) → Msg.nft c t to ∈ pay ++ [.nft c t b.bidder] → to = b.bidder := by
        intro pay to hp hn
        rcases List.mem_append.mp hn with h | h
        · exact (hp _ h).elim
        · simpa using h
      refine ⟨(pick hp hn1).trans (pick hp' hn2).symm, fun d => ?_⟩
      have := (hx d).trans (hx' d).symm
      simp only [paidOut_append, this]

end

namespace Sample
/-- governance raises the trading fee to 50% after the auction has ended and before anybody settles it -/
abbrev dear : Sudo := .updateParams { tradingFee := some (5 * 10^17) }
def s3d : State := (srun (ctx 1060000) dear s3).1
def late1 : State × List Msg := run (ctx 1060000) carol [] (.settle coll tok) s3
def late2 : State × List Msg := run (ctx 1060000) carol [] (.settle coll tok) s3d
end Sample

/-- The fee raised after the end of the auction is taken from the seller. -/
theorem C166_violated : ¬ C166_statement := by
  intro h
  have h1 := (h Sample.P Sample.self Sample.libOk Sample.s3 Sample.s3d Sample.r3 (.step (.refl _) (.sudo rfl (Sample.srun_eq
    (c := Sample.ctx 1060000) (m := Sample.dear) (by decide +kernel)))) Sample.coll Sample.tok Sample.a3 (by decide +kernel)
    (by decide +kernel) (Sample.ctx 1060000) (Sample.ctx 1060000) rfl Sample.carol Sample.carol [] [] Sample.late1.1 Sample.late2.1 Sample.late2.1
    Sample.late1.2 Sample.late2.2 [] Sample.bob Sample.bob Sample.bob (Sample.run_eq (by decide +kernel)) (by decide +kernel)).1
    (Sample.run_eq (by decide +kernel)) (by decide +kernel)
  revert h1
  decide +kernel

namespace Sample
example := C166_partial libOk r3 r3 (c := coll) (t := tok) (a := a3) (by decide +kernel) (by decide +kernel) (ctx1 := ctx 1060000)
  (ctx2 := ctx 1070000) rfl rfl rfl (run_eq (sender := carol) (funds := []) (by decide +kernel)) (to1 := bob) (by decide +kernel)
example : ok (ctx 1070000) alice [] (.settle coll tok) s3 = true ∧ sok (ctx 1070000) .endBlock s3 = true ∧
    .nft coll tok bob ∈ (srun (ctx 1070000) .endBlock s3).2 := by decide +kernel
/-- the two payments of the counterexample -/
example := C166_partial_winner libOk r3 (r3.step (.sudo rfl (srun_eq (c := ctx 1060000) (m := dear) (by decide +kernel)))) (c := coll) (t := tok) (a := a3)
  (by decide +kernel) (by decide +kernel) (run_eq (c := ctx 1060000) (sender := carol) (funds := []) (by decide +kernel)) (to1 := bob) (by decide +kernel)
  (run_eq (c := ctx 1060000) (sender := carol) (funds := []) (by decide +kernel)) (to2 := bob) (by decide +kernel)
end Sample

end Verif.Auction

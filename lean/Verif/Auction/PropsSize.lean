/-
Reserve auction: how much one call does (C155).
-/
import Verif.Auction.PropsTour
import Verif.Auction.PropsHooks
import Verif.Base.OneKey

namespace Verif.Auction
open Verif Spec

namespace Spec

/-- The library splits the price of a sale into at most `n` messages. -/
def Splits (l : Lib) (n : Nat) : Prop :=
  ∀ coin seller burn fee roy pay, l.payout coin seller burn fee roy = .ok pay → pay.length ≤ n

end Spec

variable {p : Params} {me : Addr} {n : Nat}

theorem Settled.length {ctx : Ctx} {a : Auction} {c : Config} {ws : List HaltWindow} {s s' : State} {msgs : List Msg}
    (hn : Splits p.lib n) (h : Settled p ctx a c ws s s' msgs) : msgs.length ≤ n + 1 := by
  cases h with
  | postponed => exact Nat.zero_le _
  | sold e hb roy pay he hle hout hh hroy hpay =>
    rw [List.length_append]
    exact Nat.succ_le_succ (hn _ _ _ _ _ _ hpay)

theorem Settled.one {ctx : Ctx} {a : Auction} {c : Config} {ws : List HaltWindow} {s s' : State} {msgs : List Msg}
    (h : Settled p ctx a c ws s s' msgs) : OneKey s.auctions s'.auctions := by
  cases h with
  | postponed => exact .put _ _
  | sold => exact .drop _

theorem Batch.length {ctx : Ctx} {c : Config} {ws : List HaltWindow} {as : List Auction} {s s' : State} {msgs : List Msg}
    (hn : Splits p.lib n) (h : Batch p ctx c ws as s s' msgs) : msgs.length ≤ as.length * (n + 1) := by
  induction h with
  | nil => exact Nat.zero_le _
  | cons h1 _ ih =>
    have := h1.length hn
    rw [List.length_append, List.length_cons, Nat.succ_mul]
    omega

/-! ### C155 -/

/-- However many auctions there are, a call that succeeds sends at most two messages, or a token and what the library makes of one
sale, and writes or deletes at most one auction. -/
theorem C155_calls {ctx : Ctx} {sender : Addr} {funds : List Coin} {m : Exec} {s s' : State} {msgs : List Msg}
    (hn : Splits p.lib n) (h : execute p ctx sender funds m s = .ok (s', msgs)) :
    msgs.length ≤ Nat.max 2 (n + 1) ∧ OneKey s.auctions s'.auctions := by
  cases execute_eff h with
  | create =>
    refine ⟨Nat.le_trans ?_ (Nat.le_max_left _ _), .put _ _⟩
    rw [List.length_append]
    unfold feeMsgs
    split
    · exact Nat.le_succ _
    · exact Nat.le_refl _
  | reserve => exact ⟨Nat.zero_le _, .put _ _⟩
  | cancel => exact ⟨Nat.le_trans (Nat.le_succ 1) (Nat.le_max_left _ _), .drop _⟩
  | bid1 => exact ⟨Nat.zero_le _, .put _ _⟩
  | bid2 => exact ⟨Nat.le_trans (Nat.le_succ 1) (Nat.le_max_left _ _), .put _ _⟩
  | settle _ _ a _ _ _ _ _ h => exact ⟨Nat.le_trans (h.length hn) (Nat.le_max_right _ _), h.one⟩

/-- However many auctions have ended, the end of a block sends at most the configured number times a token and what the library makes
of one sale. -/
theorem C155_block {ctx : Ctx} {s s' : State} {msgs : List Msg} (hn : Splits p.lib n)
    (h : sudo p ctx .endBlock s = .ok (s', msgs)) : msgs.length ≤ s.config.maxSettle * (n + 1) := by
  cases sudo_eff h with
  | stop earliest s1 _ _ _ hb =>
    refine Nat.le_trans (hb.length hn) (Nat.mul_le_mul_right _ ?_)
    rw [due_eq, List.length_map, List.length_take]
    exact Nat.le_trans (Nat.min_le_left _ _) (Nat.mod_le _ _)

/-- The other messages from the chain send nothing and touch no auction. -/
theorem C155_chain {ctx : Ctx} {m : Sudo} {s s' : State} {msgs : List Msg} (hm : m ≠ .endBlock)
    (h : sudo p ctx m s = .ok (s', msgs)) : msgs = [] ∧ s'.auctions = s.auctions := by
  cases sudo_eff h with
  | stop => exact absurd rfl hm
  | _ => exact ⟨rfl, rfl⟩

/-- The library of the examples pays the fee, the artist and the seller. -/
theorem lib0_splits : Splits lib0 3 := by
  have hone : ∀ to d n, (payOne to d n).length ≤ 1 := by
    intro to d n
    unfold payOne
    split
    · exact Nat.zero_le _
    · exact Nat.le_refl _
  intro coin seller burn fee roy pay h
  simp only [lib0, payout0, bind_ok] at h
  obtain ⟨f, _, rr, hr, rest, _, h⟩ := h
  cases h
  have h1 : rr.1.length ≤ 1 := by
    split at hr
    · cases hr; exact Nat.zero_le _
    · rw [bind_ok] at hr; obtain ⟨k, _, hr⟩ := hr; cases hr; exact hone _ _ _
  have h2 := hone seller coin.denom rest
  simp only [List.length_append]
  split
  · simp only [List.length_nil]; omega
  · simp only [List.length_singleton]; omega

open Sample in
/-- The settlement of the sample auction sends four messages, as does the end of the block at that time. -/
example : (run (ctx 1080000) bob [] (.settle coll tok) s4).2.length = 4 ∧ sok (ctx 1080000) .endBlock s4 = true ∧
    (srun (ctx 1080000) .endBlock s4).2.length = 4 ∧ s4.config.maxSettle = 2 := by
  decide +kernel

end Verif.Auction

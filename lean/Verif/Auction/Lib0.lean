/-
A concrete library with the assumed properties. Its functions follow the corresponding ones of
packages/sg-marketplace-common 1.3.0 in /repo; the payout is the obvious one: trading fee (rounded up) to fair burn,
royalty (rounded up) to its recipient, the rest to the seller.
-/
import Verif.Auction.Spec

namespace Verif.Auction
open Verif Spec

def payOne (to : Addr) (d : Denom) (n : Nat) : List Msg := if n = 0 then [] else [.send to [⟨d, n⟩]]

def payout0 (c : Coin) (seller _fairBurn : Addr) (fee : Nat) (roy : Option Royalty) : Res (List Msg) :=
  mulCeil c.amount fee >>= fun f =>
  (match roy with
    | none => .ok ([], 0)
    | some r => mulCeil c.amount r.share >>= fun n => .ok (payOne r.recipient c.denom n, n)) >>= fun rr =>
  subChk c.amount (f + rr.2) >>= fun rest =>
  .ok ((if f = 0 then [] else [.fairBurn [⟨c.denom, f⟩]]) ++ rr.1 ++ payOne seller c.denom rest)

def lib0 : Lib where
  onlyOwner ctx sender coll tok := ensure (ctx.q.ownerOf coll tok = some sender) .unauthorized
  hasApproval ctx coll tok := ensure (ctx.q.approval coll tok = true) .unauthorized
  onlyTradable ctx coll :=
    match ctx.q.collInfo coll with
    | some ⟨some t, _⟩ => ensure (t ≤ ctx.time) .notTradable
    | _ => .ok ()
  royalties q coll :=
    match q.collInfo coll with
    | some i => .ok i.royalty
    | none => .error .std
  payout := payout0

theorem payOne_pays {to : Addr} {d : Denom} {n : Nat} : ∀ m ∈ payOne to d n, IsPayment m := by
  intro m hm
  unfold payOne at hm
  split at hm
  · cases hm
  case isFalse h =>
    rw [List.mem_singleton] at hm
    subst hm
    refine ⟨by simp, ?_⟩
    intro c hc
    rw [List.mem_singleton] at hc
    subst hc
    exact Nat.pos_of_ne_zero h

theorem paidOut_append (d : Denom) : ∀ a b : List Msg, paidOut d (a ++ b) = paidOut d a + paidOut d b
  | [], b => by simp [paidOut]
  | m :: a, b => by
    have := paidOut_append d a b
    cases m <;> simp [paidOut, this, Nat.add_assoc]

theorem payOne_out (to : Addr) (d d' : Denom) (n : Nat) : paidOut d' (payOne to d n) = amountOf d' [⟨d, n⟩] := by
  unfold payOne
  split
  case isTrue h => simp [paidOut, amountOf, Coin.inDenom, h]
  · simp [paidOut, amountOf]

theorem payout0_ok {c : Coin} {a f : Addr} {n : Nat} {r : Option Royalty} {ms : List Msg}
    (h : payout0 c a f n r = .ok ms) : ∃ (f' y rest : Nat) (ry : List Msg), f' + y + rest = c.amount ∧
      ms = (if f' = 0 then [] else [.fairBurn [⟨c.denom, f'⟩]]) ++ ry ++ payOne a c.denom rest ∧
      (∀ m ∈ ry, IsPayment m) ∧ ∀ d, paidOut d ry = amountOf d [⟨c.denom, y⟩] := by
  unfold payout0 at h
  simp only [bind_ok] at h
  obtain ⟨f', _, rr, hr, rest, hs, h⟩ := h
  rw [subChk_ok] at hs
  have h1 : (∀ m ∈ rr.1, IsPayment m) ∧ ∀ d, paidOut d rr.1 = amountOf d [⟨c.denom, rr.2⟩] := by
    cases r with
    | none =>
      simp only [Except.ok.injEq] at hr; subst hr
      exact ⟨by simp, by simp [paidOut, amountOf, Coin.inDenom]⟩
    | some r =>
      simp only [bind_ok] at hr
      obtain ⟨n, _, hr⟩ := hr
      simp only [Except.ok.injEq] at hr; subst hr
      exact ⟨payOne_pays, fun d => payOne_out _ _ _ _⟩
  refine ⟨f', rr.2, rest, rr.1, by omega, ?_, h1⟩
  cases h; rfl

theorem lib0_ok : LibOk lib0 where
  owner ctx sender coll tok h o ho := by
    have := ensure_ok.mp h
    rw [ho] at this; cases this; rfl
  approved ctx coll tok h := ensure_ok.mp h
  tradable ctx coll h i t hi ht := by
    simp only [lib0, hi] at h
    obtain ⟨st, roy⟩ := i
    simp only at ht; subst ht
    exact ensure_ok.mp h
  pays c a f n r ms h m hm := by
    obtain ⟨f', y, rest, ry, _, rfl, h1, _⟩ := payout0_ok (f := f) h
    simp only [List.mem_append] at hm
    rcases hm with (hm | hm) | hm
    · split at hm
      · cases hm
      · rw [List.mem_singleton] at hm; subst hm; trivial
    · exact h1 m hm
    · exact payOne_pays m hm
  exact c a f n r ms h d := by
    obtain ⟨f', y, rest, ry, hsum, rfl, _, h2⟩ := payout0_ok (f := f) h
    rw [paidOut_append, paidOut_append, h2, payOne_out]
    have : paidOut d (if f' = 0 then [] else [Msg.fairBurn [⟨c.denom, f'⟩]]) = amountOf d [⟨c.denom, f'⟩] := by
      split
      case isTrue h => simp [paidOut, amountOf, Coin.inDenom, h]
      · simp [paidOut, amountOf]
    rw [this]
    simp only [amountOf, Coin.inDenom]
    split <;> omega

theorem ensure_ne {c : Prop} [Decidable c] {e : Err} (h : e ≠ .panic) : ensure c e ≠ .error .panic := by
  unfold ensure
  split
  · simp
  · simp [h]

theorem mulCeil_ne (a b : Nat) : mulCeil a b ≠ .error .panic := by
  unfold mulCeil u128; split <;> split <;> simp

theorem bind_ne {α β : Type} {x : Res α} {f : α → Res β} {e : Err} (h1 : x ≠ .error e) (h2 : ∀ a, x = .ok a → f a ≠ .error e) :
    (x >>= f) ≠ .error e := by
  cases x with
  | error e' => intro h; exact h1 (by cases h; rfl)
  | ok a => exact h2 a rfl

theorem lib0_calm : LibCalm lib0 where
  owner ctx a c t := ensure_ne (by decide)
  approval ctx c t := ensure_ne (by decide)
  tradable ctx c := by
    unfold lib0
    simp only
    split
    · exact ensure_ne (by decide)
    · simp
  royalties q c := by
    unfold lib0
    simp only
    split <;> simp
  payout c a f n r := by
    show payout0 c a f n r ≠ _
    unfold payout0
    refine bind_ne (mulCeil_ne _ _) (fun f _ => bind_ne ?_ (fun rr _ => bind_ne ?_ (fun _ _ => by simp)))
    · split
      · simp
      · exact bind_ne (mulCeil_ne _ _) (fun _ _ => by simp)
    · unfold subChk; split <;> simp

end Verif.Auction

/-
Marketplace v1: how much one call does (C155).
-/
import Verif.V1.PropsTour
import Verif.Base.OneKey

namespace Verif.V1
open Verif Spec

variable {p : Params}

theorem Paid.length {ctx : Ctx} {s : State} {coll : Addr} {payment : Nat} {to : Addr} {finder : Option Addr} {fee : Option Nat}
    {ms : List Msg} (h : Paid ctx s coll payment to finder fee ms) : ms.length ≤ 4 := by
  have hf : ∀ n, (finderMsg finder n).length ≤ 1 := by
    intro n
    unfold finderMsg
    split
    · split
      · exact Nat.le_refl _
      · exact Nat.zero_le _
    · exact Nat.zero_le _
  have := hf (finFee payment finder fee)
  cases h with
  | royalty => simp only [List.length_append, List.length_cons, List.length_nil]; omega
  | plain => simp only [List.length_append, List.length_cons, List.length_nil]; omega

theorem Sold.length {ctx : Ctx} {s : State} {a : Ask} {price : Nat} {buyer : Addr} {finder recipient : Option Addr} {ms : List Msg}
    (h : Sold ctx s a price buyer finder recipient ms) : ms.length ≤ 5 + s.saleHooks.length := by
  cases h with
  | mk pay h =>
    have := h.length
    simp only [List.length_append, List.length_singleton, saleHook, List.length_map]
    omega

theorem refund_length (o : Option Nat) (a : Addr) : (refund o a).length ≤ 1 := by
  cases o with
  | none => exact Nat.zero_le _
  | some n => exact Nat.le_refl _

/-! ### C155 -/

/-- However many orders there are, a call that succeeds sends at most six messages besides those to the hooks of one kind. -/
theorem C155_messages {ctx : Ctx} {sender : Addr} {funds : List Coin} {m : Exec} {s s' : State} {msgs : List Msg} {n : Nat}
    (hn : s.askHooks.length ≤ n ∧ s.bidHooks.length ≤ n ∧ s.cbidHooks.length ≤ n ∧ s.saleHooks.length ≤ n)
    (h : execute p ctx sender funds m s = .ok (s', msgs)) : msgs.length ≤ 6 + n := by
  obtain ⟨h1, h2, h3, h4⟩ := hn
  cases execute_eff h with
  | setAsk =>
    simp only [List.length_append, askHook, List.length_map]
    split
    · simp only [List.length_singleton]; omega
    · simp only [List.length_nil]; omega
  | bidSaved =>
    rw [List.length_append]
    refine Nat.le_trans (Nat.add_le_add_right (refund_length _ _) _) ?_
    simp only [bidHook, List.length_map]
    omega
  | bought _ _ _ _ hm =>
    rename_i hsale _
    have := hsale.length
    rw [List.length_append]
    refine Nat.le_trans (Nat.add_le_add_right (refund_length _ _) _) ?_
    omega
  | acceptBid => rename_i hsale; have := hsale.length; omega
  | acceptCBid => rename_i hsale; have := hsale.length; omega
  | setCBid =>
    rw [List.length_append]
    split
    · simp only [cbidHook, List.length_map, List.length_singleton]; omega
    · simp only [cbidHook, List.length_map, List.length_nil]; omega
  | _ => simp only [askHook, bidHook, cbidHook, List.length_cons, List.length_map]; omega

/-- However many orders there are, a call that succeeds writes or deletes at most one ask, and at most one bid or else at most one
collection bid. -/
theorem C155_orders {ctx : Ctx} {sender : Addr} {funds : List Coin} {m : Exec} {s s' : State} {msgs : List Msg}
    (h : execute p ctx sender funds m s = .ok (s', msgs)) : OneKey s.asks s'.asks ∧
      (OneKey s.bids s'.bids ∧ s'.cbids = s.cbids ∨ s'.bids = s.bids ∧ OneKey s.cbids s'.cbids) := by
  cases execute_eff h with
  | setAsk => exact ⟨.put _ _, .inl ⟨.same ([], 0, []), rfl⟩⟩
  | removeAsk => exact ⟨.drop _, .inl ⟨.same ([], 0, []), rfl⟩⟩
  | updatePrice => exact ⟨.put _ _, .inl ⟨.same ([], 0, []), rfl⟩⟩
  | bidSaved => exact ⟨.same ([], 0), .inl ⟨.renew _ _, rfl⟩⟩
  | bought => exact ⟨.drop _, .inl ⟨.drop _, rfl⟩⟩
  | removeBid => exact ⟨.same ([], 0), .inl ⟨.drop _, rfl⟩⟩
  | acceptBid => exact ⟨.drop _, .inl ⟨.drop _, rfl⟩⟩
  | rejectBid => exact ⟨.same ([], 0), .inl ⟨.drop _, rfl⟩⟩
  | setCBid => exact ⟨.same ([], 0), .inr ⟨rfl, .put _ _⟩⟩
  | removeCBid => exact ⟨.same ([], 0), .inr ⟨rfl, .drop _⟩⟩
  | acceptCBid => exact ⟨.drop _, .inr ⟨rfl, .drop _⟩⟩
  | syncAsk => exact ⟨.put _ _, .inl ⟨.same ([], 0, []), rfl⟩⟩
  | staleAsk => exact ⟨.drop _, .inl ⟨.same ([], 0, []), rfl⟩⟩
  | staleBid => exact ⟨.same ([], 0), .inl ⟨.drop _, rfl⟩⟩
  | staleCBid => exact ⟨.same ([], 0), .inr ⟨rfl, .drop _⟩⟩

open Sample in
/-- The bound is met: bob, who has a bid, buys through a finder; refund, fair burn, finder, artist, seller, token, and one hook. -/
example : ok (ctx 1002) bob (us 101) buyMsg s6 = true ∧ (run (ctx 1002) bob (us 101) buyMsg s6).2.length = 7 ∧
    s6.saleHooks.length = 1 ∧ s6.askHooks.length ≤ 1 ∧ s6.bidHooks.length ≤ 1 ∧ s6.cbidHooks.length ≤ 1 ∧
    (s6.asks.get? (coll, 1)).isSome = true ∧ s7.asks.get? (coll, 1) = none := by
  decide +kernel

end Verif.V1

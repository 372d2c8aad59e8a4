/-
Marketplace v2: how much one call does (C155).
-/
import Verif.V2.PropsTour
import Verif.Base.OneKey

namespace Verif.V2
open Verif Spec

variable {p : Params}

theorem feeLoop_length {denom : Denom} {amount : Nat} {fees : List Fee} : ∀ {left : Nat} {r : Nat × List Payment},
    feeLoop denom amount left fees = .ok r → r.2.length ≤ fees.length := by
  induction fees with
  | nil => intro left r h; cases h; exact Nat.le_refl _
  | cons f fs ih =>
    intro left r h
    unfold feeLoop at h
    split at h
    · exact Nat.le_succ_of_le (ih h)
    · simp only [bind_ok] at h
      obtain ⟨_, _, _, _, r', hr', h⟩ := h
      cases h
      exact Nat.succ_le_succ (ih hr')

theorem buildPayments_length {sale : Coin} {seller : Addr} {fees : List Fee} {ps : List Payment}
    (h : buildPayments sale seller fees = .ok ps) : ps.length ≤ fees.length + 1 := by
  simp only [buildPayments, bind_ok] at h
  obtain ⟨r, hr, h⟩ := h
  have := feeLoop_length hr
  cases h
  split
  · omega
  · rw [List.length_append, List.length_singleton]; omega

theorem saleFees_length {c : Config} {pf : ProtocolFees} {maker taker : Option Addr} {roy : Option Royalty} {fees : List Fee}
    (h : saleFees c pf maker taker roy = .ok fees) : fees.length ≤ 4 := by
  simp only [saleFees, bind_ok] at h
  obtain ⟨mk, hm, tk, ht, h⟩ := h
  have h1 : mk.length ≤ 1 := by
    split at hm
    · rw [bind_ok] at hm; obtain ⟨_, _, hm⟩ := hm; cases hm; exact Nat.le_refl _
    · cases hm; exact Nat.zero_le _
  have h2 : tk.length ≤ 1 := by
    split at ht
    · rw [bind_ok] at ht; obtain ⟨_, _, ht⟩ := ht; cases ht; exact Nat.le_refl _
    · cases ht; exact Nat.zero_le _
  cases h
  simp only [List.length_append]
  have h3 : (if 0 < pf.protocolFee then [(⟨.protocol, c.feeManager, pf.protocolFee⟩ : Fee)] else []).length ≤ 1 := by
    split
    · exact Nat.le_refl _
    · exact Nat.zero_le _
  cases roy with
  | none => simp only [List.length_nil]; omega
  | some r => simp only [List.length_singleton]; omega

theorem royalties_length {ctx : Ctx} {valid : Bytes → Bool} {reg coll : Addr} {r : Option Royalty × List Msg}
    (h : fetchOrSetRoyalties ctx valid reg coll = .ok r) : r.2.length ≤ 1 := by
  simp only [fetchOrSetRoyalties, bind_ok] at h
  obtain ⟨e, _, h⟩ := h
  split at h
  · cases h; exact Nat.zero_le _
  · split at h
    · split at h
      · cases h; exact Nat.zero_le _
      · split at h
        · cases h; exact Nat.le_refl _
        · cases h
    · cases h; exact Nat.zero_le _

theorem SaleParts.length {ctx : Ctx} {ask : Ask} {c : Config} {mb : MatchingBid} {abb : Bool}
    (x : SaleParts p ctx ask c mb abb) : x.msgs.length ≤ 7 := by
  have h1 := royalties_length x.hroy
  have h2 := saleFees_length x.hfees
  have h3 := buildPayments_length x.hpay
  simp only [SaleParts.msgs, List.length_append, payoutMsgs, List.length_map, List.length_singleton]
  omega

theorem refund_length (sender : Addr) (left : List Coin) (ms : List Msg) : (refund sender left ms).length ≤ ms.length + 1 := by
  unfold refund
  split
  · exact Nat.le_succ _
  · rw [List.length_append]; exact Nat.le_refl _

/-! ### C155 -/

/-- However many orders there are, a call that succeeds sends at most eight messages. -/
theorem C155_messages {ctx : Ctx} {sender : Addr} {funds : List Coin} {m : Exec} {s s' : State} {msgs : List Msg}
    (h : execute p ctx sender funds m s = .ok (s', msgs)) : msgs.length ≤ 8 := by
  cases execute_eff h with
  | sellAsk => rename_i x _; exact Nat.succ_le_succ x.length
  | updSell => rename_i x; exact Nat.le_succ_of_le x.length
  | accBid => rename_i x; exact Nat.le_succ_of_le x.length
  | accCBid => rename_i x; exact Nat.le_succ_of_le x.length
  | accAsk => rename_i x; exact Nat.le_trans (refund_length _ _ _) (Nat.succ_le_succ x.length)
  | buyBid => rename_i x _; exact Nat.le_trans (refund_length _ _ _) (Nat.succ_le_succ x.length)
  | buyCBid => rename_i x _; exact Nat.le_trans (refund_length _ _ _) (Nat.succ_le_succ x.length)
  | updBuy => rename_i x; exact Nat.le_trans (refund_length _ _ _) (Nat.succ_le_succ x.length)
  | updCBuy => rename_i x; exact Nat.le_trans (refund_length _ _ _) (Nat.succ_le_succ x.length)
  | restBid => exact Nat.le_trans (refund_length _ _ _) (by decide)
  | restCBid => exact Nat.le_trans (refund_length _ _ _) (by decide)
  | updBid => exact Nat.le_trans (refund_length _ _ _) (by decide)
  | updCBid => exact Nat.le_trans (refund_length _ _ _) (by decide)
  | _ => simp

theorem afterSale_one (s : State) (a : Ask) (mb : MatchingBid) : OneKey s.asks (afterSale s a mb).asks ∧
    (OneKey s.bids (afterSale s a mb).bids ∧ (afterSale s a mb).cbids = s.cbids ∨
      (afterSale s a mb).bids = s.bids ∧ OneKey s.cbids (afterSale s a mb).cbids) := by
  cases mb with
  | bid b => exact ⟨.drop _, .inl ⟨.drop _, rfl⟩⟩
  | cbid b => exact ⟨.drop _, .inr ⟨rfl, .drop _⟩⟩

/-- However many orders there are, a call that succeeds writes or deletes at most one ask, and at most one bid or else at most one
collection bid. -/
theorem C155_orders {ctx : Ctx} {sender : Addr} {funds : List Coin} {m : Exec} {s s' : State} {msgs : List Msg}
    (h : execute p ctx sender funds m s = .ok (s', msgs)) : OneKey s.asks s'.asks ∧
      (OneKey s.bids s'.bids ∧ s'.cbids = s.cbids ∨ s'.bids = s.bids ∧ OneKey s.cbids s'.cbids) := by
  cases execute_eff h with
  | sellAsk => exact afterSale_one _ _ _
  | updSell => exact afterSale_one _ _ _
  | accBid => exact afterSale_one _ _ _
  | accCBid => exact afterSale_one _ _ _
  | accAsk => exact afterSale_one (bump s) _ _
  | buyBid => exact afterSale_one (bump s) _ _
  | buyCBid => exact afterSale_one (bump s) _ _
  | updBuy => exact afterSale_one _ _ _
  | updCBuy => exact afterSale_one _ _ _
  | restAsk => exact ⟨.put _ _, .inl ⟨.same [], rfl⟩⟩
  | updAsk => exact ⟨.put _ _, .inl ⟨.same [], rfl⟩⟩
  | rmAsk => exact ⟨.drop _, .inl ⟨.same [], rfl⟩⟩
  | restBid => exact ⟨.same [], .inl ⟨.put _ _, rfl⟩⟩
  | updBid => exact ⟨.same [], .inl ⟨.put _ _, rfl⟩⟩
  | rmBid => exact ⟨.same [], .inl ⟨.drop _, rfl⟩⟩
  | restCBid => exact ⟨.same [], .inr ⟨rfl, .put _ _⟩⟩
  | updCBid => exact ⟨.same [], .inr ⟨rfl, .put _ _⟩⟩
  | rmCBid => exact ⟨.same [], .inr ⟨rfl, .drop _⟩⟩
  | _ => exact ⟨.same [], .inl ⟨.same [], rfl⟩⟩

namespace Sample

/-- bob bids 8000 on alice's token, naming carol as finder -/
def wide : State := (run (ctx (some alice)) bob [⟨ust, 8000⟩] (.setBid coll tok (det' 8000 carol)) s1).1

end Sample

open Sample in
/-- The bound is met: alice lists for less, naming admin as finder; listing fee, entry in the royalty registry, fee manager, two
finders, artist, seller and token. -/
example : ok (ctx (some alice)) alice [⟨ust, 5⟩] (.setAsk coll tok (det' 7000 admin)) wide = true ∧
    (run (ctx (some alice)) alice [⟨ust, 5⟩] (.setAsk coll tok (det' 7000 admin)) wide).2.length = 8 ∧
    (wide.bids.get? bid).isSome = true ∧ (run (ctx (some alice)) alice [⟨ust, 5⟩] (.setAsk coll tok (det' 7000 admin)) wide).1.bids.get? bid = none := by
  decide +kernel

end Verif.V2

/- Lemmas about `buildPayments`. -/
import Verif.Common.Sale

namespace Verif

/-- Payment made for one non-zero fee. -/
def feePayment (denom : Denom) (amount : Nat) (f : Fee) : Payment :=
  ⟨f.label, f.recipient, ⟨denom, ceilDiv (amount * f.share) ONE⟩⟩

def activeFees (fs : List Fee) : List Fee := fs.filter (fun f => decide (f.share ≠ 0))

/-- Sum of the rounded-up fees. -/
def feeTotal (amount : Nat) : List Fee → Nat
  | [] => 0
  | f :: fs => ceilDiv (amount * f.share) ONE + feeTotal amount fs

theorem feeTotal_active (amount : Nat) : ∀ fs, feeTotal amount (activeFees fs) = feeTotal amount fs
  | [] => rfl
  | f :: fs => by
    unfold activeFees
    by_cases h : f.share = 0
    · rw [List.filter_cons_of_neg (by simp [h])]
      rw [feeTotal, h, Nat.mul_zero, ceilDiv_zero_left _ ONE_pos, Nat.zero_add]
      exact feeTotal_active amount fs
    · rw [List.filter_cons_of_pos (by simp [h]), feeTotal, feeTotal]
      have := feeTotal_active amount fs
      unfold activeFees at this
      rw [this]

theorem feeLoop_ok {denom : Denom} {amount : Nat} : ∀ {fs : List Fee} {left : Nat} {r : Nat × List Payment},
    feeLoop denom amount left fs = .ok r →
    r.2 = (activeFees fs).map (feePayment denom amount) ∧ r.1 + feeTotal amount fs = left
  | [], left, r, h => by
    simp only [feeLoop, Except.ok.injEq] at h; subst h
    simp [activeFees, feeTotal]
  | f :: fs, left, r, h => by
    unfold feeLoop at h
    split at h
    case isTrue hz =>
      obtain ⟨h1, h2⟩ := feeLoop_ok h
      rw [feeTotal, hz, Nat.mul_zero, ceilDiv_zero_left _ ONE_pos, Nat.zero_add]
      refine ⟨?_, h2⟩
      rw [h1]; unfold activeFees; rw [List.filter_cons_of_neg (by simp [hz])]
    case isFalse hz =>
      simp only [bind_ok] at h
      obtain ⟨fa, hfa, l', hl', r', hr', h⟩ := h
      rw [mulCeil_ok] at hfa
      rw [subChk_ok] at hl'
      obtain ⟨h1, h2⟩ := feeLoop_ok hr'
      simp only [Except.ok.injEq] at h; subst h
      refine ⟨?_, ?_⟩
      · unfold activeFees; rw [List.filter_cons_of_pos (by simp [hz])]
        simp only [List.map_cons, List.cons.injEq]
        refine ⟨?_, h1⟩
        simp [feePayment, hfa.2]
      · rw [feeTotal, hfa.2]; simp only; omega

theorem feeLoop_succeeds {denom : Denom} {amount : Nat} : ∀ {fs : List Fee} {left : Nat},
    left ≤ U128MAX → feeTotal amount fs ≤ left → ∃ r, feeLoop denom amount left fs = .ok r
  | [], left, _, _ => ⟨_, rfl⟩
  | f :: fs, left, hl, h => by
    unfold feeLoop
    split
    case isTrue hz =>
      apply feeLoop_succeeds hl
      rw [feeTotal] at h; omega
    case isFalse hz =>
      rw [feeTotal] at h
      have h1 : mulCeil amount f.share = .ok (ceilDiv (amount * f.share) ONE) := by
        rw [mulCeil_ok]; exact ⟨by omega, rfl⟩
      have h2 : subChk left (ceilDiv (amount * f.share) ONE) = .ok (left - ceilDiv (amount * f.share) ONE) := by
        rw [subChk_ok]; exact ⟨by omega, rfl⟩
      obtain ⟨r, hr⟩ := feeLoop_succeeds (denom := denom) (amount := amount) (fs := fs)
        (left := left - ceilDiv (amount * f.share) ONE) (by omega) (by omega)
      exact ⟨_, by rw [h1, ok_bind, h2, ok_bind, hr, ok_bind]⟩

theorem buildPayments_ok {sale : Coin} {seller : Addr} {fees : List Fee} {ps : List Payment}
    (h : buildPayments sale seller fees = .ok ps) :
    feeTotal sale.amount fees ≤ sale.amount ∧
    ps = (activeFees fees).map (feePayment sale.denom sale.amount) ++
      (if sale.amount - feeTotal sale.amount fees = 0 then []
       else [⟨.seller, seller, ⟨sale.denom, sale.amount - feeTotal sale.amount fees⟩⟩]) := by
  unfold buildPayments at h
  rw [bind_ok] at h
  obtain ⟨r, hr, h⟩ := h
  obtain ⟨h1, h2⟩ := feeLoop_ok hr
  have h3 : sale.amount - feeTotal sale.amount fees = r.1 := by omega
  refine ⟨by omega, ?_⟩
  simp only [Except.ok.injEq] at h
  rw [h3, ← h, ← h1]
  split <;> simp

theorem buildPayments_succeeds {sale : Coin} {seller : Addr} {fees : List Fee}
    (hs : sale.amount ≤ U128MAX) (h : feeTotal sale.amount fees ≤ sale.amount) :
    ∃ ps, buildPayments sale seller fees = .ok ps := by
  obtain ⟨r, hr⟩ := feeLoop_succeeds (denom := sale.denom) hs h
  exact ⟨_, by unfold buildPayments; rw [hr, ok_bind]⟩

theorem outflow_payout_fees (d denom : Denom) (amount : Nat) : ∀ fs : List Fee,
    outflow d (payoutMsgs (fs.map (feePayment denom amount))) = if denom = d then feeTotal amount fs else 0
  | [] => by split <;> rfl
  | f :: fs => by
    have ih := outflow_payout_fees d denom amount fs
    have e : payoutMsgs (List.map (feePayment denom amount) (f :: fs)) =
        .send f.recipient [⟨denom, ceilDiv (amount * f.share) ONE⟩] ::
          payoutMsgs (List.map (feePayment denom amount) fs) := rfl
    rw [e, outflow_cons, ih, feeTotal]
    generalize ceilDiv (amount * f.share) ONE = c
    rw [Msg.out_send, amountOf_singleton]
    unfold Coin.inDenom
    split <;> rfl

/-- The payments add up to the sale coin. -/
theorem outflow_payout {sale : Coin} {seller : Addr} {fees : List Fee} {ps : List Payment}
    (h : buildPayments sale seller fees = .ok ps) (d : Denom) :
    outflow d (payoutMsgs ps) = sale.inDenom d := by
  obtain ⟨h1, h2⟩ := buildPayments_ok h
  have key := outflow_payout_fees d sale.denom sale.amount (activeFees fees)
  rw [feeTotal_active] at key
  subst h2
  unfold payoutMsgs at key ⊢
  rw [List.map_append, outflow_append, key]
  clear key h
  generalize feeTotal sale.amount fees = n at h1 ⊢
  unfold Coin.inDenom
  by_cases hd : sale.denom = d
  · by_cases hz : sale.amount - n = 0
    · simp only [hd, hz, if_true, List.map_nil, outflow_nil]; omega
    · simp only [hd, hz, if_true, if_false, List.map_cons, List.map_nil, outflow_cons, outflow_nil, Msg.out,
        amountOf, Coin.inDenom]
      omega
  · rw [if_neg hd, if_neg hd]
    by_cases hz : sale.amount - n = 0
    · rw [if_pos hz]; rfl
    · rw [if_neg hz]; simp [Msg.out, amountOf, Coin.inDenom, hd]

/-- All payments are positive (for a positive sale price). -/
theorem buildPayments_pos {sale : Coin} {seller : Addr} {fees : List Fee} {ps : List Payment}
    (h : buildPayments sale seller fees = .ok ps) (hp : 0 < sale.amount) :
    ∀ x ∈ ps, 0 < x.funds.amount := by
  obtain ⟨h1, h2⟩ := buildPayments_ok h
  intro x hx
  rw [h2, List.mem_append] at hx
  rcases hx with hx | hx
  · rw [List.mem_map] at hx
    obtain ⟨f, hf, rfl⟩ := hx
    simp only [activeFees, List.mem_filter, decide_eq_true_eq] at hf
    exact ceilDiv_pos ONE_pos (Nat.mul_pos hp (Nat.pos_of_ne_zero hf.2))
  · split at hx
    · cases hx
    · simp only [List.mem_singleton] at hx; subst hx; simp; omega

theorem payoutMsgs_no_nft {ps : List Payment} : ∀ m ∈ payoutMsgs ps, ∃ to c, m = .send to [c] := by
  intro m hm
  simp only [payoutMsgs, List.mem_map] at hm
  obtain ⟨x, _, rfl⟩ := hm
  exact ⟨_, _, rfl⟩

end Verif

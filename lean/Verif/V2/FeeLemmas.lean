/- Arithmetic of protocol and finder fees. Helper file, no properties. -/
import Verif.V2.Inv
import Verif.V2.Spec

namespace Verif.V2
open Verif Spec

deriving instance DecidableEq for Except
deriving instance DecidableEq for Payment

theorem mul_div_gen (a b c K L : Nat) (hK : K = c * L) (hpos : 0 < K * L) : (a * K) * (b * K) / (K * L) = a * b * c := by
  have : (a * K) * (b * K) = a * b * c * (K * L) := by
    conv => lhs; rw [Nat.mul_mul_mul_comm]; arg 2; arg 2; rw [hK]
    rw [← Nat.mul_assoc, ← Nat.mul_assoc, ← Nat.mul_assoc, Nat.mul_right_comm (a*b) K c]
  rw [this, Nat.mul_div_cancel _ hpos]

theorem decMul_bps (a b : Nat) : decMul (bps a) (bps b) = u128 (a * b * 10^10) := by
  unfold decMul
  have h : ONE = 10^14 * 10^4 := by decide
  rw [h]
  unfold bps
  rw [mul_div_gen a b (10^10) (10^14) (10^4) (by decide) (by decide)]

theorem bps_ge (a b : Nat) (h : b < 10000) : a * b * 10^10 ≤ bps a := by
  unfold bps
  have e : (10:Nat)^14 = 10000 * 10^10 := by decide
  rw [e, ← Nat.mul_assoc]
  exact Nat.mul_le_mul_right _ (Nat.mul_le_mul_left _ (by omega))

theorem bps_le_max (a : Nat) (h : a < 10000) : bps a ≤ U128MAX := by
  unfold bps
  have : a * 10^14 ≤ 10000 * 10^14 := Nat.mul_le_mul_right _ (by omega)
  exact Nat.le_trans this (by decide)

theorem subChk_le {a b : Nat} (h : b ≤ a) : subChk a b = .ok (a - b) := by
  rw [subChk_ok]; exact ⟨h, rfl⟩

theorem u128_le {a : Nat} (h : a ≤ U128MAX) : u128 a = .ok a := by rw [u128_ok]; exact ⟨h, rfl⟩

theorem divide_gen (F M T mb tb : Nat) (mk tk : Bool) (hb : M + T ≤ F) (hm : F ≤ U128MAX) (z1 : mb = 0 → M = 0)
    (z2 : tb = 0 → T = 0) :
    (if F = 0 then .ok ⟨F, 0, 0⟩
     else
      (if mk && decide (0 < mb) then u128 M >>= fun m => subChk F m >>= fun left => .ok (m, left)
       else .ok (0, F)) >>= fun (x : Nat × Nat) =>
      (if tk && decide (0 < tb) then u128 T >>= fun t => subChk x.2 t >>= fun left => .ok (t, left)
       else .ok (0, x.2)) >>= fun (y : Nat × Nat) => .ok ⟨y.2, x.1, y.1⟩ : Res ProtocolFees) =
    .ok ⟨F - (if mk then M else 0) - (if tk then T else 0), (if mk then M else 0), (if tk then T else 0)⟩ := by
  have e0 : u128 M = .ok M := u128_le (by omega)
  have e0' : u128 T = .ok T := u128_le (by omega)
  have e3 := subChk_le (show M ≤ F by omega)
  have e4 := subChk_le (show T ≤ F by omega)
  have e5 := subChk_le (show T ≤ F - M by omega)
  split
  case isTrue h =>
    have hM : M = 0 := by omega
    have hT : T = 0 := by omega
    subst hM; subst hT; simp
  case isFalse h =>
    rw [e0, e0']
    simp only [ok_bind, e3]
    rcases Nat.eq_zero_or_pos mb with hz1 | hz1
    · have hM := z1 hz1
      subst hM
      rcases Nat.eq_zero_or_pos tb with hz2 | hz2
      · have hT := z2 hz2
        subst hT
        simp [hz1, hz2, ok_bind]
      · simp [hz1, hz2, ok_bind, e4]
        cases tk <;> simp [ok_bind]
    · rcases Nat.eq_zero_or_pos tb with hz2 | hz2
      · have hT := z2 hz2
        subst hT
        simp [hz1, hz2, ok_bind]
        cases mk <;> simp [ok_bind]
      · simp [hz1, hz2]
        cases mk <;> cases tk <;> simp [ok_bind, e4, e5]

theorem divide_value {c : Config} (h1 : c.protocolFeeBps < 10000) (h2 : c.makerRewardBps + c.takerRewardBps < 10000)
    (mk tk : Bool) : divideProtocolFees c mk tk = .ok
      ⟨bps c.protocolFeeBps - (if mk then c.protocolFeeBps * c.makerRewardBps * 10^10 else 0)
          - (if tk then c.protocolFeeBps * c.takerRewardBps * 10^10 else 0),
        (if mk then c.protocolFeeBps * c.makerRewardBps * 10^10 else 0),
        (if tk then c.protocolFeeBps * c.takerRewardBps * 10^10 else 0)⟩ := by
  unfold divideProtocolFees
  simp only [decMul_bps]
  apply divide_gen
  · rw [← Nat.add_mul, ← Nat.mul_add]; exact bps_ge _ _ h2
  · exact bps_le_max _ h1
  · intro h; rw [h, Nat.mul_zero, Nat.zero_mul]
  · intro h; rw [h, Nat.mul_zero, Nat.zero_mul]

/-- With rewards only for present finders the fee list exists; shares by recipient. -/
theorem saleFees_value (c : Config) (pf : ProtocolFees) (mk tk : Option Addr) (roy : Option Royalty)
    (h1 : mk = none → pf.makerReward = 0)
    (h2 : tk = none → pf.takerReward = 0) : ∃ fs, saleFees c pf mk tk roy = .ok fs := by
  have g1 : ∃ a, (if 0 < pf.makerReward then orErr mk .panic >>= fun m => .ok [(⟨.maker, m, pf.makerReward⟩ : Fee)]
     else .ok [] : Res (List Fee)) = .ok a := by
    split
    · cases mk with
      | none => have := h1 rfl; omega
      | some m => exact ⟨_, rfl⟩
    · exact ⟨[], rfl⟩
  have g2 : ∃ a, (if 0 < pf.takerReward then orErr tk .panic >>= fun m => .ok [(⟨.taker, m, pf.takerReward⟩ : Fee)]
     else .ok [] : Res (List Fee)) = .ok a := by
    split
    · cases tk with
      | none => have := h2 rfl; omega
      | some m => exact ⟨_, rfl⟩
    · exact ⟨[], rfl⟩
  obtain ⟨a, ha⟩ := g1
  obtain ⟨b, hb⟩ := g2
  unfold saleFees
  rw [ha, hb]
  exact ⟨_, rfl⟩

/-- Royalty as a fee. -/
def royFees (c : Config) : Option Royalty → List Fee
  | some r => [⟨.royalty, r.recipient, Nat.min r.share (bps c.maxRoyaltyFeeBps)⟩]
  | none => []

theorem split_congr {price : Nat} {seller : Addr} {fs gs : List (Addr × Nat)}
    (h : fs.filter (fun f => decide (f.2 ≠ 0)) = gs.filter (fun f => decide (f.2 ≠ 0))) :
    split price seller fs = split price seller gs := by
  unfold split; rw [h]

theorem filter_one (a : Addr) (n : Nat) : ([(a, n)] : List (Addr × Nat)).filter (fun f => decide (f.2 ≠ 0)) =
    if n = 0 then [] else [(a, n)] := by
  by_cases h : n = 0
  · rw [if_pos h, List.filter_cons_of_neg (by simp [h])]; rfl
  · rw [if_neg h, List.filter_cons_of_pos (by simp [h])]; rfl

theorem saleFees_pairs {c : Config} {pf : ProtocolFees} {mk tk : Option Addr} {roy : Option Royalty} {fs : List Fee}
    (h1 : mk = none → pf.makerReward = 0) (h2 : tk = none → pf.takerReward = 0)
    (h : saleFees c pf mk tk roy = .ok fs) :
    (fs.map (fun f => (f.recipient, f.share))).filter (fun f => decide (f.2 ≠ 0)) =
    (([(c.feeManager, pf.protocolFee)] ++ mk.toList.map (fun a => (a, pf.makerReward)) ++
      tk.toList.map (fun a => (a, pf.takerReward))) ++
      (royFees c roy).map (fun f => (f.recipient, f.share))).filter (fun f => decide (f.2 ≠ 0)) := by
  unfold saleFees at h
  simp only [bind_ok] at h
  obtain ⟨a, ha, b, hb, h⟩ := h
  cases h
  rw [List.map_append, List.filter_append, List.filter_append (l₂ := List.map _ _)]
  congr 1
  rw [List.map_append, List.filter_append, List.filter_append (l₂ := List.map _ _),
    List.map_append, List.filter_append, List.filter_append (l₂ := List.map _ _)]
  congr 1
  · congr 1
    · rw [filter_one]
      split
      case isTrue hp => rw [if_neg (by omega)]; exact List.filter_cons_of_pos (by simp; omega)
      case isFalse hp => rw [if_pos (by omega)]; rfl
    · cases mk with
      | none => simp [h1 rfl] at ha; subst ha; rfl
      | some m =>
        show _ = ([(m, pf.makerReward)] : List (Addr × Nat)).filter _
        rw [filter_one]
        split at ha
        case isTrue hp => cases ha; rw [if_neg (by omega)]; exact List.filter_cons_of_pos (by simp; omega)
        case isFalse hp => cases ha; rw [if_pos (by omega)]; rfl
  · cases tk with
    | none => simp [h2 rfl] at hb; subst hb; rfl
    | some m =>
      show _ = ([(m, pf.takerReward)] : List (Addr × Nat)).filter _
      rw [filter_one]
      split at hb
      case isTrue hp => cases hb; rw [if_neg (by omega)]; exact List.filter_cons_of_pos (by simp; omega)
      case isFalse hp => cases hb; rw [if_pos (by omega)]; rfl

/-- The fee list handed to the sale processor has the specified shares. -/
theorem saleFees_spec {c : Config} (h1 : c.protocolFeeBps < 10000) (h2 : c.makerRewardBps + c.takerRewardBps < 10000)
    {mk tk : Option Addr} {roy : Option Royalty} {pf : ProtocolFees} {fs : List Fee}
    (hd : divideProtocolFees c mk.isSome tk.isSome = .ok pf) (h : saleFees c pf mk tk roy = .ok fs) :
    (fs.map (fun f => (f.recipient, f.share))).filter (fun f => decide (f.2 ≠ 0)) =
    (feeShares c mk tk ++ (royFees c roy).map (fun f => (f.recipient, f.share))).filter (fun f => decide (f.2 ≠ 0)) := by
  rw [divide_value h1 h2] at hd
  unfold bps at hd
  obtain ⟨x, y, z⟩ := pf
  rw [Except.ok.injEq, ProtocolFees.mk.injEq] at hd
  obtain ⟨e1, e2, e3⟩ := hd
  rw [saleFees_pairs ?_ ?_ h]
  · unfold feeShares
    simp only
    rw [← e1, ← e2, ← e3]
  · intro hn; rw [← e2]; exact if_neg (by rw [hn]; simp)
  · intro hn; rw [← e3]; exact if_neg (by rw [hn]; simp)

theorem feeShares_sum {c : Config} (h2 : c.makerRewardBps + c.takerRewardBps < 10000)
    (mk tk : Option Addr) : ((feeShares c mk tk).map Prod.snd).sum = c.protocolFeeBps * 10^14 := by
  have hb : c.protocolFeeBps * c.makerRewardBps * 10^10 + c.protocolFeeBps * c.takerRewardBps * 10^10
      ≤ c.protocolFeeBps * 10^14 := by
    rw [← Nat.add_mul, ← Nat.mul_add]; exact bps_ge _ _ h2
  have gen : ∀ F M T : Nat, M + T ≤ F → ((([(c.feeManager, F - (if mk.isSome then M else 0) - (if tk.isSome then T else 0))] ++
      mk.toList.map (fun a => (a, (if mk.isSome then M else 0))) ++
      tk.toList.map (fun a => (a, (if tk.isSome then T else 0)))).map Prod.snd).sum = F) := by
    intro F M T h
    cases mk <;> cases tk <;> simp <;> omega
  exact gen _ _ _ hb

end Verif.V2

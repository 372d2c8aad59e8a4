/-
How cosmwasm_std turns timestamps and decimals into attribute strings (`Timestamp::to_string`, `Decimal::to_string`;
not part of /repo), and how such strings are read back.
-/
import Verif.Base.Event

namespace Verif

/-- The last `k` decimal digits of `n`, with leading zeros (`{:0k}`, for `n < 10^k`). -/
def padded : Nat → Nat → Bytes
  | 0, _ => []
  | k + 1, n => padded k (n / 10) ++ [UInt8.ofNat (48 + n % 10)]

/-- `Timestamp::to_string`: seconds, a dot and nine digits of nanoseconds -/
def showTime (t : Nat) : Bytes := showNat (t / 10^9) ++ 46 :: padded 9 (t % 10^9)

/-- Remove trailing zeros (`trim_end_matches('0')`). -/
def trimZeros (bs : Bytes) : Bytes := (bs.reverse.dropWhile (fun b => decide (b = 48))).reverse

/-- `Decimal::to_string` of `n` atomics: whole part, and unless it is zero a dot and the fractional part without
trailing zeros -/
def showDec (n : Nat) : Bytes :=
  if n % 10^18 = 0 then showNat (n / 10^18) else showNat (n / 10^18) ++ 46 :: trimZeros (padded 18 (n % 10^18))

/-! ### Reading back -/

/-- Read a timestamp in nanoseconds. -/
def readTime (bs : Bytes) : Option Nat :=
  (readNat (bs.takeWhile isDigit)).bind fun s =>
    match bs.dropWhile isDigit with
    | b :: f => if b = 46 ∧ f.length = 9 then (readNat f).map (fun n => s * 10^9 + n) else none
    | [] => none

/-- Read a decimal in atomics. -/
def readDec (bs : Bytes) : Option Nat :=
  (readNat (bs.takeWhile isDigit)).bind fun w =>
    match bs.dropWhile isDigit with
    | b :: f => if b = 46 ∧ f.length ≤ 18 then (readNat f).map (fun n => w * 10^18 + n * 10^(18 - f.length)) else none
    | [] => some (w * 10^18)

/-! ### Lemmas -/

theorem numVal_append_one (a : Bytes) (b : UInt8) : numVal (a ++ [b]) = numVal a * 10 + (b.toNat - 48) := by
  unfold numVal
  simp [List.foldl_append]

theorem padded_spec : ∀ (k n : Nat), n < 10^k →
    numVal (padded k n) = n ∧ (padded k n).all isDigit = true ∧ (padded k n).length = k
  | 0, n, h => by simp only [Nat.pow_zero] at h; simp [padded, numVal]; omega
  | k + 1, n, h => by
    obtain ⟨h1, h2, h3⟩ := padded_spec k (n / 10) (by rw [Nat.pow_succ] at h; omega)
    have hd := digit_ofNat (Nat.mod_lt n (by omega : 0 < 10))
    unfold padded
    refine ⟨?_, ?_, by simp [h3]⟩
    · rw [numVal_append_one, h1, hd]; omega
    · rw [List.all_append, h2]
      simp only [List.all_cons, List.all_nil, isDigit, hd, Bool.and_true, Bool.true_and, decide_eq_true_eq]
      omega

theorem plain_dot (f : Bytes) : PlainDenom (46 :: f) := by
  intro b h; simp at h; subst h; rfl

theorem showNat_digits (n : Nat) : (showNat n).all isDigit = true := (digits_spec (Nat.lt_succ_self n)).2.1

theorem readTime_showTime (t : Nat) : readTime (showTime t) = some t := by
  obtain ⟨h4, h5⟩ := takeWhile_digits (showNat_digits (t / 10^9)) (plain_dot (padded 9 (t % 10^9)))
  obtain ⟨p1, p2, p3⟩ := padded_spec 9 (t % 10^9) (Nat.mod_lt _ (by decide))
  have hne : padded 9 (t % 10^9) ≠ [] := by intro h; rw [h] at p3; cases p3
  unfold readTime showTime
  rw [h4, h5, readNat_showNat]
  simp only [Option.bind_some, p3, and_self, if_true]
  unfold readNat
  rw [if_pos ⟨hne, p2⟩, p1, Option.map_some, Nat.div_add_mod' t (10^9)]

theorem numVal_zeros (a : Bytes) : ∀ k, numVal (a ++ List.replicate k 48) = numVal a * 10^k
  | 0 => by simp
  | k + 1 => by
    rw [List.replicate_succ', ← List.append_assoc, numVal_append_one, numVal_zeros a k, Nat.pow_succ]
    change _ + 0 = _
    rw [Nat.add_zero, Nat.mul_assoc]

theorem trimZeros_spec (bs : Bytes) : bs = trimZeros bs ++ List.replicate (bs.length - (trimZeros bs).length) 48 := by
  have key : ∀ l : Bytes, l = List.replicate (l.length - (l.dropWhile (fun b => decide (b = 48))).length) 48 ++
      l.dropWhile (fun b => decide (b = 48)) := by
    intro l
    induction l with
    | nil => rfl
    | cons x t ih =>
      by_cases hx : x = 48
      · subst hx
        have hle : (t.dropWhile (fun b => decide (b = 48))).length ≤ t.length :=
          (List.dropWhile_suffix _).length_le
        simp only [List.dropWhile_cons, decide_true, if_true, List.length_cons]
        rw [Nat.succ_sub hle, List.replicate_succ, List.cons_append, ← ih]
      · simp [hx]
  have := congrArg List.reverse (key bs.reverse)
  rw [List.reverse_reverse, List.reverse_append, List.reverse_replicate, List.length_reverse] at this
  unfold trimZeros
  rw [List.length_reverse]
  exact this

theorem readDec_showDec (n : Nat) : readDec (showDec n) = some n := by
  unfold showDec
  split
  case isTrue hz =>
    obtain ⟨h4, h5⟩ := takeWhile_digits (d := []) (showNat_digits (n / 10^18)) (by intro b h; cases h)
    rw [List.append_nil] at h4 h5
    unfold readDec
    rw [h4, h5, readNat_showNat]
    simp only [Option.bind_some]
    have := Nat.div_add_mod' n (10^18)
    rw [hz, Nat.add_zero] at this
    rw [this]
  case isFalse hz =>
    obtain ⟨p1, p2, p3⟩ := padded_spec 18 (n % 10^18) (Nat.mod_lt _ (by decide))
    generalize hF : padded 18 (n % 10^18) = F at p1 p2 p3
    have ht := trimZeros_spec F
    generalize hT : trimZeros F = T at ht
    obtain ⟨h4, h5⟩ := takeWhile_digits (showNat_digits (n / 10^18)) (plain_dot T)
    have hlen : T.length ≤ 18 := by
      have := congrArg List.length ht
      simp only [List.length_append, List.length_replicate] at this
      omega
    have hval : numVal F = numVal T * 10^(18 - T.length) := by
      rw [ht, numVal_zeros, p3]
    have hall : T.all isDigit = true := by
      rw [ht, List.all_append, Bool.and_eq_true] at p2
      exact p2.1
    have hne : T ≠ [] := by
      intro h
      rw [h] at hval
      simp [numVal] at hval p1
      omega
    unfold readDec
    rw [h4, h5, readNat_showNat]
    simp only [Option.bind_some, hlen, and_self, if_true]
    unfold readNat
    rw [if_pos ⟨hne, hall⟩, Option.map_some, ← hval, p1, Nat.div_add_mod' n (10^18)]

example : showTime 1060500000000 = [49, 48, 54, 48, 46, 53, 48, 48, 48, 48, 48, 48, 48, 48] := by decide +kernel
example : showDec (5 * 10^16) = [48, 46, 48, 53] := by decide +kernel
example : showDec (2 * 10^18) = [50] := by decide +kernel

end Verif

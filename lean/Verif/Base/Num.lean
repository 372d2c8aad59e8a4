/-
Fixed-width integers and cosmwasm_std `Decimal` (18 decimals). Values are `Nat`; operations that can
overflow in Rust are checked and return an error.
-/
import Verif.Base.Res

namespace Verif

/-- `u128::MAX` -/
def U128MAX : Nat := 2^128 - 1
/-- `u64::MAX` -/
def U64MAX : Nat := 2^64 - 1
/-- Atomics of `Decimal::one()`. -/
def ONE : Nat := 10^18

/-- Checked result for u128 (`Uint128` operators panic, `checked_*` return an error; both abort). -/
def u128 (n : Nat) : Res Nat := if n ≤ U128MAX then .ok n else .error .overflow
/-- Checked result for u64. -/
def u64 (n : Nat) : Res Nat := if n ≤ U64MAX then .ok n else .error .overflow

theorem u128_ok {n m : Nat} : u128 n = .ok m ↔ n ≤ U128MAX ∧ n = m := by
  unfold u128; split <;> simp_all <;> omega

theorem u64_ok {n m : Nat} : u64 n = .ok m ↔ n ≤ U64MAX ∧ n = m := by
  unfold u64; split <;> simp_all <;> omega

/-- `a.checked_sub(b)?` (or `-` with panic on underflow). -/
def subChk (a b : Nat) : Res Nat := if b ≤ a then .ok (a - b) else .error .overflow

theorem subChk_ok {a b c : Nat} : subChk a b = .ok c ↔ b ≤ a ∧ a - b = c := by
  unfold subChk; split <;> simp_all <;> omega

/-- `Decimal::bps(x)`: `x / 10000` as atomics. -/
def bps (x : Nat) : Nat := x * 10^14
/-- `Decimal::percent(x)`: `x / 100` as atomics. -/
def percent (x : Nat) : Nat := x * 10^16

/-- `⌈a*b/c⌉` on naturals. -/
def ceilDiv (n d : Nat) : Nat := (n + (d - 1)) / d

/-- `Uint128::mul_ceil(Decimal)`: quotient plus one if there is a remainder; panics on overflow. -/
def mulCeil (a d : Nat) : Res Nat :=
  u128 (if a * d % ONE = 0 then a * d / ONE else a * d / ONE + 1)

/-- `Uint128 * Decimal` (floor); panics on overflow. -/
def mulFloor (a d : Nat) : Res Nat := u128 (a * d / ONE)

/-- `Decimal::checked_mul` (floor); error on overflow. -/
def decMul (a b : Nat) : Res Nat := u128 (a * b / ONE)

theorem ONE_pos : 0 < ONE := by decide

theorem ceil_eq (n d : Nat) (hd : 0 < d) : (if n % d = 0 then n / d else n / d + 1) = ceilDiv n d := by
  unfold ceilDiv
  have hdm := Nat.div_add_mod n d
  have hlt := Nat.mod_lt n hd
  split
  case isTrue h =>
    symm
    apply Nat.div_eq_of_lt_le
    · rw [Nat.mul_comm]; omega
    · rw [Nat.succ_mul, Nat.mul_comm]; omega
  case isFalse h =>
    symm
    apply Nat.div_eq_of_lt_le
    · rw [Nat.succ_mul, Nat.mul_comm]; omega
    · rw [Nat.succ_mul, Nat.succ_mul, Nat.mul_comm]; omega

theorem mulCeil_ok {a d r : Nat} : mulCeil a d = .ok r ↔ ceilDiv (a * d) ONE ≤ U128MAX ∧ ceilDiv (a * d) ONE = r := by
  unfold mulCeil
  rw [ceil_eq _ _ ONE_pos, u128_ok]

theorem ceilDiv_mul_ge (n d : Nat) (hd : 0 < d) : n ≤ ceilDiv n d * d := by
  unfold ceilDiv
  have := Nat.div_add_mod (n + (d - 1)) d
  have hlt := Nat.mod_lt (n + (d - 1)) hd
  rw [Nat.mul_comm]; omega

theorem ceilDiv_mul_lt (n d : Nat) (hd : 0 < d) : ceilDiv n d * d < n + d := by
  unfold ceilDiv
  have := Nat.div_add_mod (n + (d - 1)) d
  rw [Nat.mul_comm]; omega

theorem ceilDiv_pos {n d : Nat} (hd : 0 < d) (hn : 0 < n) : 0 < ceilDiv n d := by
  have := ceilDiv_mul_ge n d hd
  apply Nat.pos_of_ne_zero
  intro h; rw [h] at this; omega

theorem ceilDiv_le_iff {n d k : Nat} (hd : 0 < d) : ceilDiv n d ≤ k ↔ n ≤ k * d := by
  constructor
  · intro h
    exact Nat.le_trans (ceilDiv_mul_ge n d hd) (Nat.mul_le_mul_right d h)
  · intro h
    have := ceilDiv_mul_lt n d hd
    apply Nat.le_of_lt_succ
    apply Nat.lt_of_mul_lt_mul_right (a := d)
    rw [Nat.succ_mul]; omega

theorem ceilDiv_mono {m n d : Nat} (h : m ≤ n) : ceilDiv m d ≤ ceilDiv n d := by
  unfold ceilDiv
  exact Nat.div_le_div_right (by omega)

theorem ceilDiv_zero_left (d : Nat) (hd : 0 < d) : ceilDiv 0 d = 0 := by
  unfold ceilDiv; exact Nat.div_eq_of_lt (by omega)

attribute [irreducible] ceilDiv

end Verif

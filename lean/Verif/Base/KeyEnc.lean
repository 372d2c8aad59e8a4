/-
cw-storage-plus key encoding (cw-storage-plus `keys.rs`, `helpers.rs`): integers are big-endian, every component but the
last carries a two-byte length. The key-value store compares the bytes. Helper file: the byte order of encoded keys is the
structural order of Lex.lean.
-/
import Verif.Base.Lex

namespace Verif

/-- `n` big-endian bytes of `x` -/
def be : Nat → Nat → Bytes
  | 0, _ => []
  | n + 1, x => UInt8.ofNat (x / 256 ^ n) :: be n x

/-- a component followed by others: two bytes of length, then the component -/
def comp (b : Bytes) : Bytes := be 2 b.length ++ b

theorem be_length : ∀ n x, (be n x).length = n
  | 0, _ => rfl
  | n + 1, x => by simp [be, be_length n x]

theorem bLe_append (p a b : Bytes) : bLe (p ++ a) (p ++ b) = bLe a b := by
  induction p with
  | nil => rfl
  | cons x p ih => simp [bLe, ih]

/-- Strings of equal length followed by others compare lexicographically. -/
theorem bLe_append_lex : ∀ {a b : Bytes} (u v : Bytes), a.length = b.length →
    bLe (a ++ u) (b ++ v) = lexLe bLe bLe (a, u) (b, v)
  | [], [], u, v, _ => by simp [lexLe]
  | x :: a, y :: b, u, v, h => by
    have h' : a.length = b.length := by simpa using h
    have ih := bLe_append_lex u v h'
    unfold lexLe at ih ⊢
    by_cases hxy : x = y
    · subst hxy
      simp only [List.cons_append, bLe, if_true, ih, List.cons.injEq, true_and]
    · simp only [List.cons_append, bLe, hxy, if_false, List.cons.injEq, false_and]

theorem be_mod : ∀ n x y, be n (x + 256 ^ n * y) = be n x
  | 0, _, _ => rfl
  | n + 1, x, y => by
    have h1 : x + 256 ^ (n + 1) * y = x + 256 ^ n * (256 * y) := by rw [Nat.pow_succ, Nat.mul_assoc]
    unfold be
    rw [h1, be_mod n x (256 * y), Nat.add_mul_div_left _ _ (Nat.pow_pos (by decide))]
    congr 1
    apply UInt8.toNat_inj.mp
    simp only [UInt8.toNat_ofNat']
    omega

/-- Big-endian integers compare as numbers. -/
theorem bLe_be : ∀ {n x y : Nat}, x < 256 ^ n → y < 256 ^ n → bLe (be n x) (be n y) = natLe x y
  | 0, x, y, hx, hy => by
    simp at hx hy
    subst hx hy
    rfl
  | n + 1, x, y, hx, hy => by
    have hp : 0 < 256 ^ n := Nat.pow_pos (by decide)
    have hdx : x / 256 ^ n < 256 := by
      apply Nat.div_lt_of_lt_mul; rw [← Nat.pow_succ]; exact hx
    have hdy : y / 256 ^ n < 256 := by
      apply Nat.div_lt_of_lt_mul; rw [← Nat.pow_succ]; exact hy
    have hmx : be n x = be n (x % 256 ^ n) := by
      conv => lhs; rw [← Nat.mod_add_div x (256 ^ n)]
      exact be_mod _ _ _
    have hmy : be n y = be n (y % 256 ^ n) := by
      conv => lhs; rw [← Nat.mod_add_div y (256 ^ n)]
      exact be_mod _ _ _
    have ih := bLe_be (n := n) (Nat.mod_lt x hp) (Nat.mod_lt y hp)
    rw [← hmx, ← hmy] at ih
    have ex := Nat.mod_add_div x (256 ^ n)
    have ey := Nat.mod_add_div y (256 ^ n)
    have lx := Nat.mod_lt x hp
    have ly := Nat.mod_lt y hp
    unfold be
    unfold bLe
    have hq : (UInt8.ofNat (x / 256 ^ n) = UInt8.ofNat (y / 256 ^ n)) ↔ x / 256 ^ n = y / 256 ^ n := by
      rw [u8_eq_iff, UInt8.toNat_ofNat', UInt8.toNat_ofNat', Nat.mod_eq_of_lt hdx, Nat.mod_eq_of_lt hdy]
    by_cases hd : x / 256 ^ n = y / 256 ^ n
    · rw [if_pos (hq.mpr hd), ih]
      unfold natLe
      rw [hd] at ex
      generalize 256 ^ n * (y / 256 ^ n) = m at ex ey
      congr 1
      apply propext
      omega
    · rw [if_neg (fun h => hd (hq.mp h))]
      unfold natLe
      congr 1
      rw [u8_lt_iff, UInt8.toNat_ofNat', UInt8.toNat_ofNat']
      apply propext
      rw [Nat.mod_eq_of_lt hdx, Nat.mod_eq_of_lt hdy]
      constructor
      · intro h
        have h2 : 256 ^ n * (x / 256 ^ n) + 256 ^ n ≤ 256 ^ n * (y / 256 ^ n) := by
          rw [← Nat.mul_succ]; exact Nat.mul_le_mul_left _ h
        omega
      · intro h
        apply Decidable.byContradiction
        intro hn
        have h3 : y / 256 ^ n < x / 256 ^ n := by omega
        have h2 : 256 ^ n * (y / 256 ^ n) + 256 ^ n ≤ 256 ^ n * (x / 256 ^ n) := by
          rw [← Nat.mul_succ]; exact Nat.mul_le_mul_left _ h3
        omega

theorem be_inj {n x y : Nat} (hx : x < 256 ^ n) (hy : y < 256 ^ n) (h : be n x = be n y) : x = y := by
  have h1 := bLe_be hx hy
  have h2 := bLe_be hy hx
  rw [h, bLe_refl] at h1
  rw [h, bLe_refl] at h2
  simp only [natLe, Eq.comm (a := true), decide_eq_true_eq] at h1 h2
  omega

/-- An integer of fixed width followed by others. -/
theorem bLe_be_lex {n x y : Nat} (u v : Bytes) (hx : x < 256 ^ n) (hy : y < 256 ^ n) :
    bLe (be n x ++ u) (be n y ++ v) = lexLe natLe bLe (x, u) (y, v) := by
  rw [bLe_append_lex u v (by rw [be_length, be_length])]
  unfold lexLe
  simp only
  by_cases h : x = y
  · simp [h]
  · rw [if_neg h, if_neg (fun e => h (be_inj hx hy e)), bLe_be hx hy]

/-- A length-prefixed integer of fixed width followed by others. -/
theorem bLe_compBe {n x y : Nat} (u v : Bytes) (hx : x < 256 ^ n) (hy : y < 256 ^ n) :
    bLe (comp (be n x) ++ u) (comp (be n y) ++ v) = lexLe natLe bLe (x, u) (y, v) := by
  unfold comp
  rw [be_length, be_length, List.append_assoc, List.append_assoc, bLe_append, bLe_be_lex u v hx hy]

/-- A length-prefixed string followed by others. -/
theorem bLe_comp {a b : Bytes} (u v : Bytes) (ha : a.length < 65536) (hb : b.length < 65536) :
    bLe (comp a ++ u) (comp b ++ v) = lexLe lenLe bLe (a, u) (b, v) := by
  unfold comp
  rw [List.append_assoc, List.append_assoc, bLe_be_lex _ _ (by simpa using ha) (by simpa using hb)]
  unfold lexLe lenLe lexLe
  simp only
  by_cases h : a.length = b.length
  · rw [if_pos h, if_pos h, bLe_append_lex u v h]
    rfl
  · rw [if_neg h, if_neg h, if_neg (fun e => h (congrArg _ e))]

/-- Orders that agree on the components agree on pairs. -/
theorem lexLe_congr {A B C : Type} [DecidableEq A] {la : A → A → Bool} {lb : B → B → Bool} {lc : C → C → Bool} {a a' : A}
    {u v : B} {x y : C} (h : lb u v = lc x y) : lexLe la lb (a, u) (a', v) = lexLe la lc (a, x) (a', y) := by
  unfold lexLe; simp only [h]

end Verif

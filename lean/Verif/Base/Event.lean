/-
Events of a response (`cosmwasm_std::Event`) and how the contracts turn values into attribute strings.
The `to_string` implementations are those of cosmwasm_std (not part of /repo).
-/
import Verif.Base.Coin

namespace Verif

/-- Attribute of an event: key and value. -/
abbrev Attr := String × Bytes

/-- `cosmwasm_std::Event` -/
structure Event where
  ty : String
  attrs : List Attr
  deriving DecidableEq, Repr

/-- Decimal digits of `n` (`fuel > n` suffices). -/
def digits : Nat → Nat → Bytes
  | 0, _ => []
  | fuel + 1, n =>
    if n < 10 then [UInt8.ofNat (48 + n)] else digits fuel (n / 10) ++ [UInt8.ofNat (48 + n % 10)]

/-- `to_string` of an unsigned integer -/
def showNat (n : Nat) : Bytes := digits (n + 1) n

/-- `Coin::to_string`: amount followed by denom -/
def showCoin (c : Coin) : Bytes := showNat c.amount ++ c.denom

/-- Bytes of a fixed ASCII text. -/
def txt (s : String) : Bytes := s.toList.map (fun c => UInt8.ofNat c.toNat)

/-- An attribute that is added only if the value is present. -/
def optAttr (k : String) : Option Bytes → List Attr
  | some v => [(k, v)]
  | none => []

/-! ### Reading attributes back

What someone who only sees the events can do with them. Used in specifications, not by the models. -/

/-- Value of the attribute with key `k`. -/
def Event.get (e : Event) (k : String) : Option Bytes := (e.attrs.find? (fun a => decide (a.1 = k))).map Prod.snd

/-- The byte is an ASCII digit. -/
def isDigit (b : UInt8) : Bool := decide (48 ≤ b.toNat ∧ b.toNat ≤ 57)

/-- Value of a string of digits. -/
def numVal (bs : Bytes) : Nat := bs.foldl (fun a b => a * 10 + (b.toNat - 48)) 0

/-- Read a number. -/
def readNat (bs : Bytes) : Option Nat := if bs ≠ [] ∧ bs.all isDigit = true then some (numVal bs) else none

/-- Read a coin: the leading digits are the amount, the rest is the denom. -/
def readCoin (bs : Bytes) : Option Coin :=
  (readNat (bs.takeWhile isDigit)).map (fun n => ⟨bs.dropWhile isDigit, n⟩)

/-- The denom does not start with a digit. The bank module admits only such denoms. -/
def PlainDenom (d : Denom) : Prop := ∀ b, d.head? = some b → isDigit b = false

instance (d : Denom) : Decidable (PlainDenom d) :=
  match d with
  | [] => .isTrue (by intro b h; cases h)
  | x :: t => decidable_of_iff (isDigit x = false) (by simp [PlainDenom])

/-! ### Lemmas -/

theorem digit_ofNat {n : Nat} (h : n < 10) : (UInt8.ofNat (48 + n)).toNat = 48 + n := by
  rw [UInt8.toNat_ofNat']; omega

theorem digits_spec : ∀ {f n : Nat}, n < f →
    numVal (digits f n) = n ∧ (digits f n).all isDigit = true ∧ digits f n ≠ []
  | 0, _, h => by omega
  | f + 1, n, h => by
    unfold digits
    split
    case isTrue hn => simp [numVal, isDigit]; omega
    case isFalse hn =>
      obtain ⟨h1, h2, _⟩ := digits_spec (f := f) (n := n / 10) (by omega)
      have hd := digit_ofNat (Nat.mod_lt n (by omega : 0 < 10))
      refine ⟨?_, ?_, by simp⟩
      · unfold numVal at h1 ⊢
        rw [List.foldl_append, h1]
        simp only [List.foldl_cons, List.foldl_nil, hd]
        omega
      · rw [List.all_append, h2]
        simp only [List.all_cons, List.all_nil, isDigit, hd, Bool.and_true, Bool.true_and, decide_eq_true_eq]
        omega

theorem readNat_showNat (n : Nat) : readNat (showNat n) = some n := by
  obtain ⟨h1, h2, h3⟩ := digits_spec (Nat.lt_succ_self n)
  unfold readNat showNat
  rw [if_pos ⟨h3, h2⟩]
  exact congrArg some h1

theorem showNat_inj {m n : Nat} (h : showNat m = showNat n) : m = n := by
  have := congrArg readNat h
  simpa [readNat_showNat] using this

theorem takeWhile_digits {ds d : Bytes} (h : ds.all isDigit = true) (hd : PlainDenom d) :
    (ds ++ d).takeWhile isDigit = ds ∧ (ds ++ d).dropWhile isDigit = d := by
  induction ds with
  | nil =>
    cases d with
    | nil => exact ⟨rfl, rfl⟩
    | cons x t => simp [hd x rfl]
  | cons x t ih =>
    simp only [List.all_cons, Bool.and_eq_true] at h
    simp [h.1, ih h.2]

theorem readCoin_showCoin {c : Coin} (h : PlainDenom c.denom) : readCoin (showCoin c) = some c := by
  obtain ⟨_, h2, _⟩ := digits_spec (Nat.lt_succ_self c.amount)
  obtain ⟨h4, h5⟩ := takeWhile_digits (d := c.denom) h2 h
  unfold readCoin showCoin
  change (readNat ((digits (c.amount + 1) c.amount ++ c.denom).takeWhile isDigit)).map
    (fun n => (⟨(digits (c.amount + 1) c.amount ++ c.denom).dropWhile isDigit, n⟩ : Coin)) = some c
  rw [h4, h5]
  change (readNat (showNat c.amount)).map _ = _
  rw [readNat_showNat]
  rfl

theorem Event.get_mk (ty : String) (a : Attr) (l : List Attr) (k : String) :
    (Event.mk ty (a :: l)).get k = if a.1 = k then some a.2 else (Event.mk ty l).get k := by
  unfold Event.get
  simp only [List.find?_cons]
  split <;> simp_all

theorem Event.get_nil (ty : String) (k : String) : (Event.mk ty []).get k = none := rfl

theorem Event.get_append (ty : String) (a b : List Attr) (k : String) :
    (Event.mk ty (a ++ b)).get k = ((Event.mk ty a).get k).or ((Event.mk ty b).get k) := by
  unfold Event.get
  simp only [List.find?_append]
  cases List.find? (fun x => decide (x.1 = k)) a <;> simp

theorem Event.get_opt (ty : String) (k' k : String) (v : Option Bytes) :
    (Event.mk ty (optAttr k' v)).get k = if k' = k then v else none := by
  cases v <;> simp [optAttr, Event.get_mk, Event.get_nil]

/-- Reading requires a denom without leading digit: twelve `u` and one `2u` look the same. -/
example : showCoin ⟨[117], 12⟩ = showCoin ⟨[50, 117], 1⟩ := by decide +kernel
example : showCoin ⟨[117], 120⟩ = [49, 50, 48, 117] := by decide +kernel

end Verif

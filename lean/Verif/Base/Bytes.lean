/-
Byte strings, their lexicographic order, and a structurally recursive sort.
Addresses, denoms, token ids and order ids are UTF-8 strings in the Rust code; they are modelled as
their byte sequences, which is also how they are compared in the key-value store.
-/
namespace Verif

abbrev Bytes := List UInt8
abbrev Addr := Bytes
abbrev Denom := Bytes

/-- Lexicographic `≤` on byte strings (order of keys in the CosmWasm key-value store). -/
def bLe : Bytes → Bytes → Bool
  | [], _ => true
  | _ :: _, [] => false
  | a :: as, b :: bs => if a = b then bLe as bs else decide (a < b)

theorem bLe_refl : ∀ a, bLe a a = true
  | [] => rfl
  | a :: as => by simp [bLe, bLe_refl as]

theorem bLe_nil (a : Bytes) : bLe [] a = true := by cases a <;> rfl

theorem u8_lt_iff {a b : UInt8} : a < b ↔ a.toNat < b.toNat := UInt8.lt_iff_toNat_lt

theorem u8_eq_iff {a b : UInt8} : a = b ↔ a.toNat = b.toNat :=
  ⟨fun h => h ▸ rfl, fun h => UInt8.toNat_inj.mp h⟩

theorem bLe_total : ∀ a b, bLe a b = true ∨ bLe b a = true
  | [], b => Or.inl (bLe_nil b)
  | _ :: _, [] => Or.inr rfl
  | a :: as, b :: bs => by
    by_cases h : a = b
    · subst h
      simpa [bLe] using bLe_total as bs
    · have h' : ¬ b = a := fun e => h e.symm
      simp only [bLe, h, h', if_false, decide_eq_true_eq]
      rw [u8_lt_iff, u8_lt_iff]
      rw [u8_eq_iff] at h
      omega

theorem bLe_antisymm : ∀ {a b}, bLe a b = true → bLe b a = true → a = b
  | [], [], _, _ => rfl
  | [], _ :: _, _, h => by simp [bLe] at h
  | _ :: _, [], h, _ => by simp [bLe] at h
  | a :: as, b :: bs, h1, h2 => by
    by_cases h : a = b
    · subst h
      simp [bLe] at h1 h2
      rw [bLe_antisymm h1 h2]
    · have h' : ¬ b = a := fun e => h e.symm
      simp only [bLe, h, h', if_false, decide_eq_true_eq] at h1 h2
      rw [u8_lt_iff] at h1 h2
      omega

theorem bLe_trans : ∀ {a b c}, bLe a b = true → bLe b c = true → bLe a c = true
  | [], _, c, _, _ => bLe_nil c
  | _ :: _, [], _, h, _ => by simp [bLe] at h
  | _ :: _, _ :: _, [], _, h => by simp [bLe] at h
  | a :: as, b :: bs, c :: cs, h1, h2 => by
    by_cases hab : a = b
    · subst hab
      by_cases hbc : a = c
      · subst hbc
        simp [bLe] at h1 h2 ⊢
        exact bLe_trans h1 h2
      · simp only [bLe, hbc, if_false] at h2 ⊢
        exact h2
    · by_cases hbc : b = c
      · subst hbc
        simp only [bLe, hab, if_false] at h1 ⊢
        exact h1
      · simp only [bLe, hab, hbc, if_false, decide_eq_true_eq] at h1 h2
        have hac : ¬ a = c := by
          rw [u8_eq_iff]; rw [u8_lt_iff] at h1 h2; omega
        simp only [bLe, hac, if_false, decide_eq_true_eq]
        rw [u8_lt_iff] at *
        omega

/-! ### Sorting -/

/-- Insert into a sorted list (before the first element that is not smaller). -/
def insertBy {α : Type} (le : α → α → Bool) (x : α) : List α → List α
  | [] => [x]
  | y :: ys => if le x y then x :: y :: ys else y :: insertBy le x ys

/-- Insertion sort. -/
def sortBy {α : Type} (le : α → α → Bool) : List α → List α
  | [] => []
  | x :: xs => insertBy le x (sortBy le xs)

section
variable {α : Type} {le : α → α → Bool}

theorem insertBy_perm (x : α) : ∀ l, (insertBy le x l).Perm (x :: l)
  | [] => List.Perm.refl _
  | y :: ys => by
    unfold insertBy
    split
    · exact List.Perm.refl _
    · exact ((insertBy_perm x ys).cons y).trans (List.Perm.swap x y ys)

theorem sortBy_perm : ∀ l : List α, (sortBy le l).Perm l
  | [] => List.Perm.refl _
  | x :: xs => (insertBy_perm x _).trans ((sortBy_perm xs).cons x)

theorem mem_sortBy {l : List α} {a : α} : a ∈ sortBy le l ↔ a ∈ l :=
  (sortBy_perm l).mem_iff

theorem insertBy_pairwise (htot : ∀ a b, le a b = true ∨ le b a = true)
    (htr : ∀ a b c, le a b = true → le b c = true → le a c = true) (x : α) :
    ∀ l, l.Pairwise (fun a b => le a b = true) →
      (insertBy le x l).Pairwise (fun a b => le a b = true)
  | [], _ => by simp [insertBy]
  | y :: ys, h => by
    unfold insertBy
    split
    case isTrue hxy =>
      refine List.Pairwise.cons ?_ h
      intro z hz
      cases List.mem_cons.mp hz with
      | inl e => exact e ▸ hxy
      | inr hz => exact htr _ _ _ hxy ((List.pairwise_cons.mp h).1 z hz)
    case isFalse hxy =>
      have hyx : le y x = true := (htot x y).resolve_left hxy
      have h' := List.pairwise_cons.mp h
      refine List.Pairwise.cons ?_ (insertBy_pairwise htot htr x ys h'.2)
      intro z hz
      have hz' := (insertBy_perm x ys).mem_iff.mp hz
      cases List.mem_cons.mp hz' with
      | inl e => exact e ▸ hyx
      | inr hz => exact h'.1 z hz

theorem sortBy_pairwise (htot : ∀ a b, le a b = true ∨ le b a = true)
    (htr : ∀ a b c, le a b = true → le b c = true → le a c = true) :
    ∀ l : List α, (sortBy le l).Pairwise (fun a b => le a b = true)
  | [] => List.Pairwise.nil
  | x :: xs => insertBy_pairwise htot htr x _ (sortBy_pairwise htot htr xs)

end

/-! ### Big-endian encodings -/

/-- `u64::to_be_bytes`. -/
def be8 (n : Nat) : Bytes :=
  [UInt8.ofNat (n / 2^56), UInt8.ofNat (n / 2^48), UInt8.ofNat (n / 2^40), UInt8.ofNat (n / 2^32),
   UInt8.ofNat (n / 2^24), UInt8.ofNat (n / 2^16), UInt8.ofNat (n / 2^8), UInt8.ofNat n]

theorem be8_length (n : Nat) : (be8 n).length = 8 := rfl

theorem be8_inj {m n : Nat} (hm : m < 2^64) (hn : n < 2^64) (h : be8 m = be8 n) : m = n := by
  simp only [be8, List.cons.injEq, and_true, ← UInt8.toNat_inj, UInt8.toNat_ofNat'] at h
  omega

end Verif

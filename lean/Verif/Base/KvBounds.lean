/-
Bounds of iteration in the key-value store: cw-storage-plus prefix.rs turns a prefix and bounds into a first key and an end key
and drops the prefix from the keys found.
-/
import Verif.Base.Kv
import Verif.Base.Listing

namespace Verif.Kv
open Verif

/-- Lists sorted strictly with the same members are equal. -/
theorem eq_of_sorted {α : Type} {lt : α → α → Prop} (irr : ∀ a, ¬ lt a a) (asymm : ∀ a b, lt a b → ¬ lt b a) :
    ∀ {l l' : List α}, l.Pairwise lt → l'.Pairwise lt → (∀ x, x ∈ l ↔ x ∈ l') → l = l'
  | [], [], _, _, _ => rfl
  | [], b :: l', _, _, h => by have := (h b).mpr (by simp); cases this
  | a :: l, [], _, _, h => by have := (h a).mp (by simp); cases this
  | a :: l, b :: l', s, s', h => by
    rw [List.pairwise_cons] at s s'
    have hab : a = b := by
      rcases List.mem_cons.mp ((h a).mp (by simp)) with e | h1
      · exact e
      rcases List.mem_cons.mp ((h b).mpr (by simp)) with e | h2
      · exact e.symm
      exact absurd (s'.1 _ h1) (asymm _ _ (s.1 _ h2))
    subst hab
    congr 1
    refine eq_of_sorted irr asymm s.2 s'.2 (fun x => ?_)
    constructor
    · intro hx
      rcases List.mem_cons.mp ((h x).mp (List.mem_cons_of_mem _ hx)) with e | h1
      · subst e; exact absurd (s.1 _ hx) (irr _)
      · exact h1
    · intro hx
      rcases List.mem_cons.mp ((h x).mpr (List.mem_cons_of_mem _ hx)) with e | h1
      · subst e; exact absurd (s'.1 _ hx) (irr _)
      · exact h1

section
variable {C : Type}

theorem mem_below {r : AMap Bytes C} {p b : Bytes} {c : C} : (b, c) ∈ below r p ↔ r.get? (p ++ b) = some c := by
  unfold below
  rw [List.mem_filterMap]
  constructor
  · rintro ⟨⟨k, c'⟩, h1, h2⟩
    split at h2
    · rename_i hp
      obtain ⟨u, hu⟩ := List.isPrefixOf_iff_prefix.mp hp
      simp only at hu
      subst hu
      simp only [Option.some.injEq, Prod.mk.injEq, List.drop_left] at h2
      rw [← h2.1, ← h2.2]
      exact AMap.mem_iff.mp h1
    · cases h2
  · intro h
    refine ⟨(p ++ b, c), AMap.mem_iff.mpr h, ?_⟩
    rw [if_pos (List.isPrefixOf_iff_prefix.mpr ⟨b, rfl⟩)]
    simp

theorem below_nodup (r : AMap Bytes C) (p : Bytes) : ((below r p).map Prod.fst).Nodup := by
  unfold below
  have h := r.nd
  rw [List.Nodup, List.pairwise_map] at h ⊢
  rw [List.pairwise_filterMap]
  refine h.imp ?_
  rintro ⟨k, c⟩ ⟨k', c'⟩ hne a ha b hb e
  split at ha
  · split at hb
    · rename_i hp hp'
      obtain ⟨u, hu⟩ := List.isPrefixOf_iff_prefix.mp hp
      obtain ⟨u', hu'⟩ := List.isPrefixOf_iff_prefix.mp hp'
      simp only at hu hu'
      subst hu hu'
      simp only [Option.some.injEq] at ha hb
      subst ha hb
      simp only [List.drop_left] at e
      exact hne (by rw [e])
    · cases hb
  · cases ha

end

theorem scan_later {J L : Type} {le : J → J → Bool} (hl : Lin le) {es : List (J × L)} (hnd : (es.map Prod.fst).Nodup) (desc : Bool)
    (mn mx : Option (QBound J)) : (scan le es desc mn mx).Pairwise (fun a b => later le desc a.1 b.1 = true) := by
  unfold later
  cases desc with
  | false => exact scan_strict hl.total hl.trans hl.anti hnd mn mx
  | true => exact scan_strict_desc hl.total hl.trans hl.anti hnd mn mx

/-! ### Incremented prefixes -/

theorem incr_length : ∀ p : Bytes, (incr p).2.length = p.length
  | [] => rfl
  | x :: t => by
    unfold incr
    split
    · split <;> simp [incr_length t]
    · simp [incr_length t]

theorem u8_lt_succ {x y : UInt8} (hx : x ≠ 255) : (x + 1 = y ∨ x + 1 < y) ↔ x < y := by
  have h1 : x.toNat ≠ 255 := fun e => hx (UInt8.toNat_inj.mp e)
  have h2 : x.toNat < 256 := x.toNat_lt
  have h3 : (x + 1).toNat = x.toNat + 1 := by
    rw [UInt8.toNat_add]
    have : (1 : UInt8).toNat = 1 := rfl
    omega
  rw [UInt8.lt_iff_toNat_lt, UInt8.lt_iff_toNat_lt, ← UInt8.toNat_inj, h3]
  omega

theorem u8_255 {x : UInt8} (hx : x = 255) (y : UInt8) : ¬ x < y := by
  subst hx
  rw [UInt8.lt_iff_toNat_lt]
  have := y.toNat_lt
  have : (255 : UInt8).toNat = 255 := rfl
  omega

theorem u8_zero (y : UInt8) : 0 = y ∨ 0 < y := by
  rw [UInt8.lt_iff_toNat_lt, ← UInt8.toNat_inj]
  have : (0 : UInt8).toNat = 0 := rfl
  omega

/-- All bytes 255: nothing is greater without having the prefix, and the increment is zero. -/
theorem incr_carry : ∀ {p b : Bytes}, (incr p).1 = true → p.length ≤ b.length →
    (bLe p b = true → p <+: b) ∧ bLe (incr p).2 b = true
  | [], b, _, _ => ⟨fun _ => List.nil_prefix, by simp [incr, bLe]⟩
  | x :: t, [], _, h => by simp at h
  | x :: t, y :: b, hc, h => by
    unfold incr at hc ⊢
    by_cases ht : (incr t).1 = true
    · rw [if_pos ht] at hc ⊢
      by_cases hx : x = 255
      · rw [if_pos hx]
        obtain ⟨i1, i2⟩ := incr_carry ht (b := b) (by simpa using h)
        refine ⟨fun hb => ?_, ?_⟩
        · unfold bLe at hb
          split at hb
          · rename_i e; rw [e, List.cons_prefix_cons]; exact ⟨rfl, i1 hb⟩
          · exact absurd (of_decide_eq_true hb) (u8_255 hx y)
        · simp only [bLe]
          split
          · exact i2
          · rename_i e
            rcases u8_zero y with h0 | h0
            · exact absurd h0 e
            · exact decide_eq_true h0
      · rw [if_neg hx] at hc; cases hc
    · rw [if_neg ht] at hc; cases hc

/-- Keys from the increment on: those that are greater and do not have the prefix. -/
theorem incr_le : ∀ {p b : Bytes}, (incr p).1 = false → p.length ≤ b.length →
    (bLe (incr p).2 b = true ↔ bLe p b = true ∧ ¬ p <+: b)
  | [], _, hc, _ => by simp [incr] at hc
  | x :: t, [], _, h => by simp at h
  | x :: t, y :: b, hc, h => by
    have hl : t.length ≤ b.length := by simpa using h
    unfold incr at hc ⊢
    by_cases ht : (incr t).1 = true
    · rw [if_pos ht] at hc ⊢
      by_cases hx : x = 255
      · rw [if_pos hx] at hc; cases hc
      · rw [if_neg hx]
        obtain ⟨i1, i2⟩ := incr_carry ht hl
        simp only [bLe, List.cons_prefix_cons, not_and]
        have : (if x + 1 = y then bLe (incr t).2 b else decide (x + 1 < y)) = true ↔ x < y := by
          rw [← u8_lt_succ hx]
          split
          · rename_i e; simp [i2, e]
          · rename_i e; simp [e]
        rw [this]
        constructor
        · intro hlt
          have hne : x ≠ y := by intro e; subst e; exact absurd hlt (UInt8.lt_irrefl x)
          rw [if_neg hne]
          exact ⟨decide_eq_true hlt, fun e => absurd e hne⟩
        · rintro ⟨h1, h2⟩
          split at h1
          · rename_i e; exact absurd (i1 h1) (h2 e)
          · exact of_decide_eq_true h1
    · rw [if_neg ht]
      have ih := incr_le (by simpa using ht) hl
      simp only [bLe, List.cons_prefix_cons, not_and]
      split
      · rename_i e; rw [ih]; simp [e]
      · rename_i e; simp [e]

theorem incr_append {b : Bytes} (hb : (incr b).1 = false) : ∀ a : Bytes, incr (a ++ b) = (false, a ++ (incr b).2)
  | [] => by rw [List.nil_append, List.nil_append, ← hb]
  | x :: a => by rw [List.cons_append, incr, incr_append hb a]; rfl

/-- Keys between a prefix and an extension of it have the prefix. -/
theorem between_ext : ∀ {p u b : Bytes}, bLe p b = true → bLe (p ++ u) b = false → p <+: b
  | [], _, _, _, _ => List.nil_prefix
  | _ :: _, _, [], h, _ => by simp [bLe] at h
  | x :: p, u, y :: b, h1, h2 => by
    simp only [List.cons_append, bLe] at h1 h2
    rw [List.cons_prefix_cons]
    split at h1
    · rename_i e
      subst e
      simp only [if_true] at h2
      exact ⟨rfl, between_ext h1 h2⟩
    · rename_i e
      rw [if_neg e] at h2
      rw [h1] at h2; cases h2

theorem bLe_prefix {p b : Bytes} (h : p <+: b) : bLe p b = true := by
  obtain ⟨u, rfl⟩ := h
  have := bLe_append p [] u
  rw [List.append_nil] at this
  rw [this]; rfl

/-- `extend_one_byte` -/
theorem bLe_zero : ∀ (a b : Bytes), bLe (a ++ [0]) b = (bLe a b && !bLe b a)
  | [], [] => rfl
  | [], y :: b => by
    simp only [List.nil_append, bLe, Bool.true_and, Bool.not_false]
    rcases u8_zero y with h | h
    · simp [h]
    · have : (0 : UInt8) ≠ y := by intro e; rw [← e] at h; exact UInt8.lt_irrefl _ h
      simp [this, h]
  | x :: a, [] => by simp [bLe]
  | x :: a, y :: b => by
    simp only [List.cons_append, bLe]
    by_cases h : x = y
    · simp [h, bLe_zero a b]
    · have h' : ¬ y = x := fun e => h e.symm
      simp only [if_neg h, if_neg h']
      by_cases h1 : x < y
      · have : ¬ y < x := UInt8.lt_asymm h1
        simp [h1, this]
      · simp [h1]

/-- Iterating between the computed keys gives the cells below the prefix within the bounds: the carry stays in the second part
of the prefix, and no key below the first part is shorter than the prefix unless it comes before it. -/
theorem range_within {C : Type} (r : AMap Bytes C) {A B : Bytes} (hB : (incr B).1 = false)
    (hk : ∀ k c, r.get? k = some c → A <+: k → bLe (A ++ B) k = true → (A ++ B).length ≤ k.length) (desc : Bool)
    (mn mx : Option (QBound Bytes)) : range r (A ++ B) desc mn mx = within r (A ++ B) desc mn mx := by
  have hinc : incr (A ++ B) = (false, A ++ (incr B).2) := incr_append hB A
  generalize hP : A ++ B = P at *
  have hfl : (incr P).1 = false := by rw [hinc]
  -- keys found have the prefix
  have hpre : ∀ b c, (b, c) ∈ r.l → okMin bLe (some (.incl (startKey P mn))) b = true →
      okMax bLe (some (.excl (endKey P mx))) b = true → P <+: b := by
    intro b c hm h1 h2
    simp only [okMin, okMax, Bool.and_eq_true, Bool.not_eq_true'] at h1 h2
    have h3 : bLe P b = true := by
      refine bLe_trans (bLe_prefix ?_) h1
      cases mn with
      | none => exact List.prefix_rfl
      | some m => cases m <;> simp [startKey, List.append_assoc]
    cases mx with
    | none =>
      have h4 : bLe (incr P).2 b = false := h2.2
      have hA : A <+: b := by
        refine between_ext (u := (incr B).2) (bLe_trans (bLe_prefix ?_) h3) ?_
        · rw [← hP]; exact ⟨B, rfl⟩
        · rw [hinc] at h4; exact h4
      have hl := hk b c (AMap.mem_iff.mp hm) hA h3
      apply Classical.byContradiction
      intro hn
      rw [(incr_le hfl hl).mpr ⟨h3, hn⟩] at h4
      cases h4
    | some m =>
      cases m with
      | excl c => exact between_ext h3 h2.2
      | incl c => simp only [endKey, List.append_assoc] at h2; exact between_ext h3 h2.2
  have hmin : ∀ u, okMin bLe (some (.incl (startKey P mn))) (P ++ u) = okMin bLe mn u := by
    intro u
    cases mn with
    | none => exact bLe_prefix ⟨u, rfl⟩
    | some m =>
      cases m with
      | incl c => exact bLe_append P c u
      | excl c => simp only [okMin, startKey, List.append_assoc, bLe_append, bLe_zero]
  have hexcl : ∀ e b, okMax bLe (some (.excl e)) b = !bLe e b := by
    intro e b
    simp only [okMax]
    cases h : bLe e b with
    | true => simp
    | false =>
      rcases bLe_total b e with h' | h'
      · simp [h']
      · rw [h] at h'; cases h'
  have hmax : ∀ u, okMax bLe (some (.excl (endKey P mx))) (P ++ u) = okMax bLe mx u := by
    intro u
    rw [hexcl]
    cases mx with
    | none =>
      have : bLe (incr P).2 (P ++ u) = false := by
        cases h : bLe (incr P).2 (P ++ u) with
        | false => rfl
        | true => exact absurd ⟨u, rfl⟩ ((incr_le hfl (by simp)).mp h).2
      simp only [endKey, incLast, this]; rfl
    | some m =>
      cases m with
      | excl c => rw [hexcl]; simp only [endKey, bLe_append]
      | incl c =>
        simp only [okMax, endKey, List.append_assoc, bLe_append, bLe_zero]
        cases h : bLe u c with
        | false =>
          rcases bLe_total u c with h' | h'
          · rw [h] at h'; cases h'
          · simp [h']
        | true => simp
  unfold range within
  refine eq_of_sorted (lt := fun a b : Bytes × C => later bLe desc a.1 b.1 = true)
    (fun a => by rw [later_irrefl]; simp) (fun a b h1 => by rw [later_asymm bytesLin h1]; simp) ?_
    (scan_later bytesLin (below_nodup r _) desc _ _) ?_
  · rw [List.pairwise_map]
    refine List.Pairwise.imp_of_mem ?_ (scan_later bytesLin r.nd desc _ _)
    intro a b ha hb hab
    have ma := mem_scan.mp ha
    have mb := mem_scan.mp hb
    obtain ⟨u, hu⟩ := hpre a.1 a.2 ma.1 ma.2.1 ma.2.2
    obtain ⟨v, hv⟩ := hpre b.1 b.2 mb.1 mb.2.1 mb.2.2
    unfold later ltK at hab ⊢
    rw [← hu, ← hv] at hab ⊢
    simpa only [List.drop_left, bLe_append] using hab
  · rintro ⟨b, c⟩
    rw [List.mem_map, mem_scan, mem_below]
    constructor
    · rintro ⟨⟨k, c'⟩, h1, h2⟩
      have m1 := mem_scan.mp h1
      obtain ⟨u, hu⟩ := hpre k c' m1.1 m1.2.1 m1.2.2
      simp only at hu m1
      subst hu
      rw [hmin, hmax] at m1
      simp only [List.drop_left, Prod.mk.injEq] at h2
      rw [← h2.1, ← h2.2]
      exact ⟨AMap.mem_iff.mp m1.1, m1.2⟩
    · rintro ⟨h1, h2⟩
      refine ⟨(P ++ b, c), mem_scan.mpr ⟨AMap.mem_iff.mpr h1, ?_⟩, by simp⟩
      simp only
      rw [hmin, hmax]
      exact h2

/-- The same for a prefix that does not end with the byte 255. -/
theorem range_plain {C : Type} (r : AMap Bytes C) {p : Bytes} (hp : p ≠ []) (h255 : p.getLast? ≠ some 255) (desc : Bool)
    (mn mx : Option (QBound Bytes)) : range r p desc mn mx = within r p desc mn mx := by
  obtain ⟨q, x, rfl⟩ : ∃ q x, p = q ++ [x] := ⟨p.dropLast, p.getLast hp, (List.dropLast_concat_getLast hp).symm⟩
  have hx : x ≠ 255 := by intro e; subst e; simp at h255
  refine range_within r (by simp [incr, hx]) ?_ desc mn mx
  rintro k c _ ⟨u, rfl⟩ h
  rw [bLe_append] at h
  cases u with
  | nil => simp [bLe] at h
  | cons y u => simp

/-- Lengths come first in components. -/
theorem comp_le {a a' u : Bytes} (ha : a.length < 65536) (ha' : a'.length < 65536) (h : bLe (comp a) (comp a' ++ u) = true) :
    (comp a).length ≤ (comp a' ++ u).length := by
  have : a.length ≤ a'.length := by
    unfold comp at h
    rw [List.append_assoc, bLe_be_lex _ _ (by simpa using ha) (by simpa using ha')] at h
    unfold lexLe at h
    simp only at h
    split at h
    · rename_i e; exact Nat.le_of_eq e
    · exact of_decide_eq_true h
  simp only [comp, List.length_append, be_length]
  omega

theorem incr_all {x : UInt8} {t : Bytes} (h : (incr (x :: t)).1 = true) : x = 255 ∧ (incr t).1 = true := by
  unfold incr at h
  by_cases ht : (incr t).1 = true
  · rw [if_pos ht] at h
    by_cases hx : x = 255
    · exact ⟨hx, ht⟩
    · rw [if_neg hx] at h; cases h
  · rw [if_neg ht] at h; cases h

theorem incr_comp {a : Bytes} (ha : a.length < 65535) : (incr (comp a)).1 = false := by
  cases h : (incr (comp a)).1 with
  | false => rfl
  | true =>
    obtain ⟨h1, h2⟩ := incr_all (x := UInt8.ofNat (a.length / 256 ^ 1)) (t := UInt8.ofNat (a.length / 256 ^ 0) :: a) h
    obtain ⟨h3, _⟩ := incr_all h2
    have e1 := congrArg UInt8.toNat h1
    have e3 := congrArg UInt8.toNat h3
    simp only [UInt8.toNat_ofNat'] at e1 e3
    have : (255 : UInt8).toNat = 255 := rfl
    omega

end Verif.Kv

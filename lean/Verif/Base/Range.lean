/-
Ordered range scans over storage and secondary indexes.
Models cw-storage-plus `range(min, max, order)` on a sorted key space followed by `take(limit)`, and
sg-index-query `QueryOptions`/`QueryBound`.
-/
import Verif.Base.Bytes

namespace Verif

/-- `QueryBound` / `Bound` -/
inductive QBound (K : Type) where
  | incl (k : K)
  | excl (k : K)

/-- Bound on an encoded key. -/
def QBound.map {A B : Type} (f : A → B) : QBound A → QBound B
  | .incl k => .incl (f k)
  | .excl k => .excl (f k)

/-- `sg_index_query::QueryOptions` -/
structure QOpts (K : Type) where
  descending : Option Bool := none
  limit : Option Nat := none
  min : Option (QBound K) := none
  max : Option (QBound K) := none

section
variable {K V : Type} (le : K → K → Bool)

/-- Key `k` satisfies the lower bound. -/
def okMin (b : Option (QBound K)) (k : K) : Bool :=
  match b with
  | none => true
  | some (.incl m) => le m k
  | some (.excl m) => le m k && !le k m

/-- Key `k` satisfies the upper bound. -/
def okMax (b : Option (QBound K)) (k : K) : Bool :=
  match b with
  | none => true
  | some (.incl m) => le k m
  | some (.excl m) => le k m && !le m k

/-- All entries within the bounds, in ascending or descending key order. -/
def scan (es : List (K × V)) (desc : Bool) (min max : Option (QBound K)) : List (K × V) :=
  let s := (sortBy (fun a b => le a.1 b.1) es).filter (fun e => okMin le min e.1 && okMax le max e.1)
  if desc then s.reverse else s

/-- A paged query: scan with the options unpacked, `limit = min(limit.unwrap_or(default), max)`. -/
def runQuery (defLimit maxLimit : Nat) (es : List (K × V)) (o : QOpts K) : List V :=
  ((scan le es (o.descending.getD false) o.min o.max).take (Nat.min (o.limit.getD defLimit) maxLimit)).map
    Prod.snd
end

section
variable {K V : Type} {le : K → K → Bool}
  (htot : ∀ a b, le a b = true ∨ le b a = true)
  (htr : ∀ a b c, le a b = true → le b c = true → le a c = true)

theorem mem_scan {es : List (K × V)} {desc : Bool} {mn mx : Option (QBound K)} {e : K × V} :
    e ∈ scan le es desc mn mx ↔ e ∈ es ∧ okMin le mn e.1 = true ∧ okMax le mx e.1 = true := by
  unfold scan
  cases desc <;> simp [mem_sortBy]

include htot htr in
theorem scan_sorted (es : List (K × V)) (mn mx : Option (QBound K)) :
    (scan le es false mn mx).Pairwise (fun a b => le a.1 b.1 = true) := by
  unfold scan
  simp only [Bool.false_eq_true, if_false]
  apply List.Pairwise.filter
  exact sortBy_pairwise (le := fun a b : K × V => le a.1 b.1) (fun a b => htot a.1 b.1)
    (fun a b c => htr a.1 b.1 c.1) es

include htot htr in
theorem scan_sorted_desc (es : List (K × V)) (mn mx : Option (QBound K)) :
    (scan le es true mn mx).Pairwise (fun a b => le b.1 a.1 = true) := by
  have h := scan_sorted htot htr es mn mx
  unfold scan at h ⊢
  simp only [Bool.false_eq_true, if_false, if_true] at h ⊢
  rw [List.pairwise_reverse]
  exact h

include htot htr in
/-- The first entry of an ascending scan has the least key in bounds. -/
theorem scan_head_asc {es : List (K × V)} {mn mx : Option (QBound K)} {e : K × V}
    (h : (scan le es false mn mx).head? = some e) :
    e ∈ es ∧ okMin le mn e.1 = true ∧ okMax le mx e.1 = true ∧
    ∀ e' ∈ es, okMin le mn e'.1 = true → okMax le mx e'.1 = true → le e.1 e'.1 = true := by
  have hm : e ∈ scan le es false mn mx := List.mem_of_mem_head? h
  refine ⟨(mem_scan.mp hm).1, (mem_scan.mp hm).2.1, (mem_scan.mp hm).2.2, ?_⟩
  intro e' he' h1 h2
  have he'' : e' ∈ scan le es false mn mx := mem_scan.mpr ⟨he', h1, h2⟩
  have hs := scan_sorted htot htr es mn mx
  cases hsc : scan le es false mn mx with
  | nil => rw [hsc] at h; simp at h
  | cons a t =>
    rw [hsc] at h he'' hs
    simp only [List.head?_cons, Option.some.injEq] at h
    subst h
    cases List.mem_cons.mp he'' with
    | inl h => rw [h]; exact (htot a.1 a.1).elim id id
    | inr h => exact (List.pairwise_cons.mp hs).1 e' h

include htot htr in
/-- The first entry of a descending scan has the greatest key in bounds. -/
theorem scan_head_desc {es : List (K × V)} {mn mx : Option (QBound K)} {e : K × V}
    (h : (scan le es true mn mx).head? = some e) :
    e ∈ es ∧ okMin le mn e.1 = true ∧ okMax le mx e.1 = true ∧
    ∀ e' ∈ es, okMin le mn e'.1 = true → okMax le mx e'.1 = true → le e'.1 e.1 = true := by
  have hm : e ∈ scan le es true mn mx := List.mem_of_mem_head? h
  refine ⟨(mem_scan.mp hm).1, (mem_scan.mp hm).2.1, (mem_scan.mp hm).2.2, ?_⟩
  intro e' he' h1 h2
  have he'' : e' ∈ scan le es true mn mx := mem_scan.mpr ⟨he', h1, h2⟩
  have hs := scan_sorted_desc htot htr es mn mx
  cases hsc : scan le es true mn mx with
  | nil => rw [hsc] at h; simp at h
  | cons a t =>
    rw [hsc] at h he'' hs
    simp only [List.head?_cons, Option.some.injEq] at h
    subst h
    cases List.mem_cons.mp he'' with
    | inl h => rw [h]; exact (htot a.1 a.1).elim id id
    | inr h => exact (List.pairwise_cons.mp hs).1 e' h

/-- An empty scan means nothing is in bounds. -/
theorem scan_head_none {es : List (K × V)} {desc : Bool} {mn mx : Option (QBound K)}
    (h : (scan le es desc mn mx).head? = none) :
    ∀ e' ∈ es, okMin le mn e'.1 = true → okMax le mx e'.1 = true → False := by
  intro e' he' h1 h2
  have : e' ∈ scan le es desc mn mx := mem_scan.mpr ⟨he', h1, h2⟩
  rw [List.head?_eq_none_iff] at h
  rw [h] at this
  cases this

/-- A query with limit 1 followed by `.pop()` yields the head of the scan. -/
theorem runQuery_one {d m : Nat} (hm : 1 ≤ m) {es : List (K × V)} {o : QOpts K} (hl : o.limit = some 1) :
    (runQuery le d m es o).getLast? =
      ((scan le es (o.descending.getD false) o.min o.max).head?).map Prod.snd := by
  unfold runQuery
  rw [hl]
  have : Nat.min ((some 1).getD d) m = 1 := by
    simp only [Option.getD_some]; exact Nat.min_eq_left hm
  rw [this]
  cases scan le es (o.descending.getD false) o.min o.max <;> simp
end

/-- Order of (price, order id) index keys: price first, then id. -/
def pkLe (a b : Nat × Bytes) : Bool := decide (a.1 < b.1) || (decide (a.1 = b.1) && bLe a.2 b.2)

theorem pkLe_total (a b : Nat × Bytes) : pkLe a b = true ∨ pkLe b a = true := by
  simp only [pkLe, Bool.or_eq_true, decide_eq_true_eq, Bool.and_eq_true]
  have := bLe_total a.2 b.2
  by_cases h : a.1 = b.1
  · simp only [h, Nat.lt_irrefl, true_and, false_or]; exact this
  · omega

theorem pkLe_trans (a b c : Nat × Bytes) (h1 : pkLe a b = true) (h2 : pkLe b c = true) :
    pkLe a c = true := by
  simp only [pkLe, Bool.or_eq_true, decide_eq_true_eq, Bool.and_eq_true] at *
  rcases h1 with h1 | ⟨h1, h1'⟩ <;> rcases h2 with h2 | ⟨h2, h2'⟩
  · left; omega
  · left; omega
  · left; omega
  · right; exact ⟨by omega, bLe_trans h1' h2'⟩

theorem pkLe_antisymm {a b : Nat × Bytes} (h1 : pkLe a b = true) (h2 : pkLe b a = true) : a = b := by
  simp only [pkLe, Bool.or_eq_true, decide_eq_true_eq, Bool.and_eq_true] at *
  rcases h1 with h1 | ⟨h1, h1'⟩ <;> rcases h2 with h2 | ⟨h2, h2'⟩
  · omega
  · omega
  · omega
  · exact Prod.ext h1 (bLe_antisymm h1' h2')

theorem pkLe_fst {a b : Nat × Bytes} (h : pkLe a b = true) : a.1 ≤ b.1 := by
  simp only [pkLe, Bool.or_eq_true, decide_eq_true_eq, Bool.and_eq_true] at h
  omega

theorem okMin_pk_incl {n : Nat} {k : Nat × Bytes} :
    okMin pkLe (some (.incl (n, []))) k = true ↔ n ≤ k.1 := by
  simp only [okMin, pkLe, Bool.or_eq_true, decide_eq_true_eq, Bool.and_eq_true, bLe_nil, and_true]
  omega

theorem okMax_pk_excl {n : Nat} {k : Nat × Bytes} :
    okMax pkLe (some (.excl (n + 1, []))) k = true ↔ k.1 ≤ n := by
  simp only [okMax, pkLe, Bool.and_eq_true, Bool.or_eq_true, decide_eq_true_eq, bLe_nil,
    Bool.not_eq_true', Bool.or_eq_false_iff, decide_eq_false_iff_not, Bool.and_eq_false_iff]
  constructor
  · rintro ⟨h1, h2, h3⟩
    have : ¬ n + 1 = k.1 := by simpa using h3
    omega
  · intro h
    refine ⟨Or.inl (by omega), by omega, ?_⟩
    simp; omega

end Verif

/-
Walking through the pages of a query. Helper file, no properties.
-/
import Verif.Base.Range

namespace Verif

/-- A client that pages: it asks with the given options, then again with the key of the last result as exclusive
bound, `n` times in all, and concatenates the answers. -/
def walk {K V : Type} (query : QOpts K → List V) (key : V → K) (desc : Bool) (limit : Option Nat) :
    Nat → Option (QBound K) → Option (QBound K) → List V
  | 0, _, _ => []
  | n + 1, mn, mx =>
    let page := query ⟨some desc, limit, mn, mx⟩
    match page.getLast? with
    | none => page
    | some v =>
      page ++ (if desc then walk query key desc limit n mn (some (.excl (key v)))
               else walk query key desc limit n (some (.excl (key v))) mx)

section
variable {K V : Type} {le : K → K → Bool}
  (htot : ∀ a b, le a b = true ∨ le b a = true)
  (htr : ∀ a b c, le a b = true → le b c = true → le a c = true)
  (hanti : ∀ a b, le a b = true → le b a = true → a = b)

/-- strictly smaller -/
def ltK (le : K → K → Bool) (a b : K) : Bool := le a b && !le b a

theorem ltK_iff {a b : K} : ltK le a b = true ↔ le a b = true ∧ le b a = false := by
  simp [ltK]

include htr in
theorem ltK_trans {a b c : K} (h1 : ltK le a b = true) (h2 : ltK le b c = true) : ltK le a c = true := by
  rw [ltK_iff] at *
  refine ⟨htr _ _ _ h1.1 h2.1, ?_⟩
  cases h : le c a
  · rfl
  · have := htr _ _ _ h2.1 h; rw [h1.2] at this; cases this

theorem ltK_irrefl {a : K} : ltK le a a = false := by
  unfold ltK; cases le a a <;> rfl

include htr in
theorem ltK_asymm {a b : K} (h1 : ltK le a b = true) : ltK le b a = false := by
  cases h : ltK le b a
  · rfl
  · have := ltK_trans htr h1 h; rw [ltK_irrefl] at this; cases this

/-- In a list sorted by `lt`, the elements after `x` are the last part. -/
theorem filter_after {α : Type} {lt : α → α → Bool} (hirr : ∀ a, lt a a = false)
    (hasym : ∀ a b, lt a b = true → lt b a = false) {l : List α} (h : l.Pairwise (fun a b => lt a b = true))
    {n : Nat} {x : α} (hx : (l.take n).getLast? = some x) : l.filter (fun y => lt x y) = l.drop n := by
  have e : l = l.take n ++ l.drop n := (List.take_append_drop n l).symm
  have hmem : x ∈ l.take n := List.mem_of_getLast? hx
  obtain ⟨A, hA⟩ : ∃ A, l.take n = A ++ [x] := List.getLast?_eq_some_iff.mp hx
  rw [e, hA] at h
  have hA' := List.pairwise_append.mp h
  have hAx := List.pairwise_append.mp hA'.1
  have h1 : (l.take n).filter (fun y => lt x y) = [] := by
    rw [List.filter_eq_nil_iff]
    intro y hy
    rw [hA, List.mem_append, List.mem_singleton] at hy
    rcases hy with hy | rfl
    · rw [hasym _ _ (hAx.2.2 y hy x (by simp))]; simp
    · rw [hirr]; simp
  have h2 : (l.drop n).filter (fun y => lt x y) = l.drop n := by
    rw [List.filter_eq_self]
    intro y hy
    exact hA'.2.2 x (by simp) y hy
  conv => lhs; rw [e]
  rw [List.filter_append, h1, h2, List.nil_append]

include htot htr hanti in
/-- With distinct keys the scan is strictly sorted. -/
theorem scan_strict {es : List (K × V)} (hnd : (es.map Prod.fst).Nodup) (mn mx : Option (QBound K)) :
    (scan le es false mn mx).Pairwise (fun a b => ltK le a.1 b.1 = true) := by
  have h1 := scan_sorted htot htr es mn mx
  have h2 : (scan le es false mn mx).Pairwise (fun a b => a.1 ≠ b.1) := by
    have hp : ((sortBy (fun a b : K × V => le a.1 b.1) es).map Prod.fst).Nodup :=
      ((sortBy_perm es).map Prod.fst).nodup_iff.mpr hnd
    have hp' := List.pairwise_map.mp hp
    unfold scan
    simp only [Bool.false_eq_true, if_false]
    exact hp'.filter _
  refine (h1.and h2).imp ?_
  rintro a b ⟨hab, hne⟩
  rw [ltK_iff]
  refine ⟨hab, ?_⟩
  cases h : le b.1 a.1
  · rfl
  · exact absurd (hanti _ _ hab h) hne

include htot htr hanti in
theorem scan_strict_desc {es : List (K × V)} (hnd : (es.map Prod.fst).Nodup) (mn mx : Option (QBound K)) :
    (scan le es true mn mx).Pairwise (fun a b => ltK le b.1 a.1 = true) := by
  have h := scan_strict htot htr hanti hnd mn mx
  unfold scan at h ⊢
  simp only [Bool.false_eq_true, if_false, if_true] at h ⊢
  rw [List.pairwise_reverse]
  exact h

include htr in
theorem okMin_mono {mn : Option (QBound K)} {a b : K} (h : okMin le mn a = true) (hab : ltK le a b = true) :
    okMin le mn b = true := by
  rw [ltK_iff] at hab
  match mn with
  | none => rfl
  | some (.incl k) => exact htr _ _ _ h hab.1
  | some (.excl k) =>
    unfold okMin at h ⊢
    exact ltK_trans htr h (ltK_iff.mpr hab)

include htr in
theorem okMax_mono {mx : Option (QBound K)} {a b : K} (h : okMax le mx a = true) (hab : ltK le b a = true) :
    okMax le mx b = true := by
  have hab' := ltK_iff.mp hab
  match mx with
  | none => rfl
  | some (.incl k) => exact htr _ _ _ hab'.1 h
  | some (.excl k) => unfold okMax at h ⊢; exact ltK_trans htr hab h

include htot htr hanti in
/-- The next ascending page starts right after the last key. -/
theorem scan_next_asc {es : List (K × V)} (hnd : (es.map Prod.fst).Nodup) {mn mx : Option (QBound K)} {n : Nat}
    {x : K × V} (hx : ((scan le es false mn mx).take n).getLast? = some x) :
    scan le es false (some (.excl x.1)) mx = (scan le es false mn mx).drop n := by
  rw [← filter_after (lt := fun a b : K × V => ltK le a.1 b.1) (fun _ => ltK_irrefl) (fun _ _ => ltK_asymm htr)
    (scan_strict htot htr hanti hnd mn mx) hx]
  have hxm : okMin le mn x.1 = true := (mem_scan.mp (List.mem_of_mem_take (List.mem_of_getLast? hx))).2.1
  unfold scan
  simp only [Bool.false_eq_true, if_false]
  rw [List.filter_filter]
  apply List.filter_congr
  intro e _
  have e1 : okMin le (some (.excl x.1)) e.1 = ltK le x.1 e.1 := rfl
  rw [e1]
  cases h : ltK le x.1 e.1
  · simp
  · rw [okMin_mono htr hxm h]; simp

include htot htr hanti in
/-- The next descending page starts right before the last key. -/
theorem scan_next_desc {es : List (K × V)} (hnd : (es.map Prod.fst).Nodup) {mn mx : Option (QBound K)} {n : Nat}
    {x : K × V} (hx : ((scan le es true mn mx).take n).getLast? = some x) :
    scan le es true mn (some (.excl x.1)) = (scan le es true mn mx).drop n := by
  rw [← filter_after (lt := fun a b : K × V => ltK le b.1 a.1) (fun _ => ltK_irrefl) (fun _ _ => ltK_asymm htr)
    (scan_strict_desc htot htr hanti hnd mn mx) hx]
  have hxm : okMax le mx x.1 = true := (mem_scan.mp (List.mem_of_mem_take (List.mem_of_getLast? hx))).2.2
  unfold scan
  simp only [if_true]
  rw [List.filter_reverse, List.filter_filter]
  congr 1
  apply List.filter_congr
  intro e _
  have e1 : okMax le (some (.excl x.1)) e.1 = ltK le e.1 x.1 := rfl
  rw [e1]
  cases h : ltK le e.1 x.1
  · simp
  · rw [okMax_mono htr hxm h]; simp

include htot htr hanti in
/-- After `n` pages the client has seen exactly the first `n * limit` entries of the scan. -/
theorem walk_eq {es : List (K × V)} (hnd : (es.map Prod.fst).Nodup) {key : V → K} (hkey : ∀ e ∈ es, key e.2 = e.1)
    (defLimit maxLimit : Nat) (desc : Bool) (limit : Option Nat) :
    ∀ (n : Nat) (mn mx : Option (QBound K)),
    walk (runQuery le defLimit maxLimit es) key desc limit n mn mx =
      ((scan le es desc mn mx).take (n * Nat.min (limit.getD defLimit) maxLimit)).map Prod.snd
  | 0, mn, mx => by simp [walk]
  | n + 1, mn, mx => by
    unfold walk
    have hp : runQuery le defLimit maxLimit es ⟨some desc, limit, mn, mx⟩ =
        ((scan le es desc mn mx).take (Nat.min (limit.getD defLimit) maxLimit)).map Prod.snd := rfl
    rw [hp]
    generalize hL : Nat.min (limit.getD defLimit) maxLimit = L
    simp only
    have htake : (scan le es desc mn mx).take ((n + 1) * L) =
        (scan le es desc mn mx).take L ++ ((scan le es desc mn mx).drop L).take (n * L) := by
      rw [Nat.succ_mul, Nat.add_comm, List.take_add]
    rw [htake, List.map_append]
    cases hlast : ((scan le es desc mn mx).take L).getLast? with
    | none =>
      rw [List.getLast?_eq_none_iff] at hlast
      rw [hlast]
      simp only [List.map_nil, List.getLast?_nil, List.nil_append]
      rw [List.take_eq_nil_iff] at hlast
      rcases hlast with h | h
      · simp [h]
      · rw [h]; simp
    | some x =>
      have hx : x ∈ es := (mem_scan.mp (List.mem_of_mem_take (List.mem_of_getLast? hlast))).1
      rw [List.getLast?_map, hlast]
      simp only [Option.map_some, hkey x hx]
      congr 1
      cases desc with
      | false =>
        have ih := walk_eq hnd hkey defLimit maxLimit false limit n (some (.excl x.1)) mx
        rw [hL, scan_next_asc htot htr hanti hnd hlast] at ih
        exact ih
      | true =>
        have ih := walk_eq hnd hkey defLimit maxLimit true limit n mn (some (.excl x.1))
        rw [hL, scan_next_desc htot htr hanti hnd hlast] at ih
        exact ih

include htot htr hanti in
/-- Summary: there is one list of everything within the bounds, strictly sorted, and the client sees its prefixes. -/
theorem walk_spec {es : List (K × V)} (hnd : (es.map Prod.fst).Nodup) {key : V → K} (hkey : ∀ e ∈ es, key e.2 = e.1)
    (defLimit maxLimit : Nat) (desc : Bool) (limit : Option Nat) (mn mx : Option (QBound K)) :
    ∃ all : List V,
      (∀ v, v ∈ all ↔ (key v, v) ∈ es ∧ okMin le mn (key v) = true ∧ okMax le mx (key v) = true) ∧
      all.Pairwise (fun a b => if desc then ltK le (key b) (key a) = true else ltK le (key a) (key b) = true) ∧
      ∀ n, walk (runQuery le defLimit maxLimit es) key desc limit n mn mx =
        all.take (n * Nat.min (limit.getD defLimit) maxLimit) := by
  refine ⟨(scan le es desc mn mx).map Prod.snd, ?_, ?_, ?_⟩
  · intro v
    rw [List.mem_map]
    constructor
    · rintro ⟨e, he, rfl⟩
      obtain ⟨h1, h2, h3⟩ := mem_scan.mp he
      rw [hkey e h1]; exact ⟨h1, h2, h3⟩
    · rintro ⟨h1, h2, h3⟩
      exact ⟨_, mem_scan.mpr ⟨h1, h2, h3⟩, rfl⟩
  · rw [List.pairwise_map]
    cases desc with
    | false =>
      refine (scan_strict htot htr hanti hnd mn mx).imp_of_mem ?_
      intro a b ha hb h
      rw [hkey a (mem_scan.mp ha).1, hkey b (mem_scan.mp hb).1]; exact h
    | true =>
      refine (scan_strict_desc htot htr hanti hnd mn mx).imp_of_mem ?_
      intro a b ha hb h
      rw [hkey a (mem_scan.mp ha).1, hkey b (mem_scan.mp hb).1]; exact h
  · intro n
    rw [walk_eq htot htr hanti hnd hkey, List.map_take]

end
end Verif

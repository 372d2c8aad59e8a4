/-
Linear orders on structured storage keys, and pages of a query that takes a start offset. Helper file, no properties.
-/
import Verif.Base.Paging

namespace Verif

/-- `le` is a linear order. -/
structure Lin {K : Type} (le : K → K → Bool) : Prop where
  total : ∀ a b, le a b = true ∨ le b a = true
  trans : ∀ a b c, le a b = true → le b c = true → le a c = true
  anti : ∀ a b, le a b = true → le b a = true → a = b

theorem Lin.refl {K : Type} {le : K → K → Bool} (h : Lin le) (a : K) : le a a = true := (h.total a a).elim id id

def natLe (a b : Nat) : Bool := decide (a ≤ b)

theorem natLin : Lin natLe where
  total a b := by simp only [natLe, decide_eq_true_eq]; omega
  trans a b c := by simp only [natLe, decide_eq_true_eq]; omega
  anti a b := by simp only [natLe, decide_eq_true_eq]; omega

theorem bytesLin : Lin bLe where
  total := bLe_total
  trans _ _ _ := bLe_trans
  anti _ _ := bLe_antisymm

/-- Lexicographic order of pairs. -/
def lexLe {A B : Type} [DecidableEq A] (la : A → A → Bool) (lb : B → B → Bool) (x y : A × B) : Bool :=
  if x.1 = y.1 then lb x.2 y.2 else la x.1 y.1

theorem lexLin {A B : Type} [DecidableEq A] {la : A → A → Bool} {lb : B → B → Bool} (ha : Lin la) (hb : Lin lb) :
    Lin (lexLe la lb) where
  total x y := by
    unfold lexLe
    by_cases h : x.1 = y.1
    · simp only [h, if_true]; exact hb.total _ _
    · rw [if_neg h, if_neg (fun e => h e.symm)]; exact ha.total _ _
  trans x y z h1 h2 := by
    unfold lexLe at *
    by_cases hxy : x.1 = y.1
    · rw [if_pos hxy] at h1
      rw [hxy]
      split
      case isTrue h => rw [if_pos h] at h2; exact hb.trans _ _ _ h1 h2
      case isFalse h => rw [if_neg h] at h2; exact h2
    · rw [if_neg hxy] at h1
      by_cases hyz : y.1 = z.1
      · rw [← hyz, if_neg hxy]; exact h1
      · rw [if_neg hyz] at h2
        have hxz : x.1 ≠ z.1 := by
          intro e
          rw [← e] at h2
          exact hxy (ha.anti _ _ h1 h2)
        rw [if_neg hxz]; exact ha.trans _ _ _ h1 h2
  anti x y h1 h2 := by
    unfold lexLe at *
    by_cases hxy : x.1 = y.1
    · rw [if_pos hxy] at h1; rw [if_pos hxy.symm] at h2
      exact Prod.ext hxy (hb.anti _ _ h1 h2)
    · rw [if_neg hxy] at h1; rw [if_neg (fun e => hxy e.symm)] at h2
      exact absurd (ha.anti _ _ h1 h2) hxy

/-- Order of length-prefixed strings: shorter first, then by bytes. -/
def lenLe (a b : Bytes) : Bool := lexLe natLe bLe (a.length, a) (b.length, b)

theorem lenLin : Lin lenLe where
  total _ _ := (lexLin natLin bytesLin).total _ _
  trans _ _ _ := (lexLin natLin bytesLin).trans _ _ _
  anti _ _ h1 h2 := congrArg Prod.snd ((lexLin natLin bytesLin).anti _ _ h1 h2)

/-! ### Strict orders -/

theorem ltK_nat {a b : Nat} : ltK natLe a b = true ↔ a < b := by
  rw [ltK_iff]; simp only [natLe, decide_eq_true_eq, decide_eq_false_iff_not]; omega

theorem ltK_lin {K : Type} {le : K → K → Bool} (h : Lin le) {a b : K} : ltK le a b = true ↔ le a b = true ∧ a ≠ b := by
  rw [ltK_iff]
  constructor
  · rintro ⟨h1, h2⟩
    refine ⟨h1, ?_⟩
    rintro rfl; rw [h1] at h2; cases h2
  · rintro ⟨h1, h2⟩
    refine ⟨h1, ?_⟩
    cases h3 : le b a
    · rfl
    · exact absurd (h.anti _ _ h1 h3) h2

theorem ltK_lex {A B : Type} [DecidableEq A] {la : A → A → Bool} {lb : B → B → Bool} (ha : Lin la) {x y : A × B} :
    ltK (lexLe la lb) x y = true ↔ ltK la x.1 y.1 = true ∨ (x.1 = y.1 ∧ ltK lb x.2 y.2 = true) := by
  rw [ltK_iff, ltK_lin ha, ltK_iff]
  unfold lexLe
  by_cases h : x.1 = y.1
  · rw [if_pos h, if_pos h.symm]; simp [h]
  · rw [if_neg h, if_neg (fun e => h e.symm)]
    simp only [h, false_and, or_false, ne_eq, not_false_eq_true, and_true]
    constructor
    · exact fun h => h.1
    · intro h1
      refine ⟨h1, ?_⟩
      cases h3 : la y.1 x.1
      · rfl
      · exact absurd (ha.anti _ _ h1 h3) h

/-! ### Pages with a start offset -/

/-- A client that pages: asks for a page, then for the page after (in query order) the last item, `n` times in all. -/
def pages {O V : Type} (query : Option O → Option Nat → List V) (off : V → O) (limit : Option Nat) : Nat → Option O → List V
  | 0, _ => []
  | n + 1, start =>
    match (query start limit).getLast? with
    | none => query start limit
    | some v => query start limit ++ pages query off limit n (some (off v))

section
variable {K V O : Type}

/-- `b` comes strictly after `a` in a scan. -/
def later (le : K → K → Bool) (desc : Bool) (a b : K) : Bool := if desc then ltK le b a else ltK le a b

/-- Rows of a query: scan of the whole index, filtered. -/
def rows (le : K → K → Bool) (es : List (K × V)) (desc : Bool) (f : V → Bool) : List (K × V) :=
  (scan le es desc none none).filter (fun e => f e.2)

/-- Scan starting strictly after a key. -/
def scanFrom (le : K → K → Bool) (es : List (K × V)) (desc : Bool) (start : Option K) : List (K × V) :=
  if desc then scan le es true none (start.map .excl) else scan le es false (start.map .excl) none

theorem scanFrom_some {le : K → K → Bool} {es : List (K × V)} {desc : Bool} {k : K} {f : V → Bool} :
    (scanFrom le es desc (some k)).filter (fun e => f e.2) = (rows le es desc f).filter (fun e => later le desc k e.1) := by
  unfold scanFrom rows
  rw [List.filter_filter]
  cases desc with
  | false =>
    simp only [Bool.false_eq_true, if_false, scan, Option.map_some, okMin, okMax, Bool.and_true, later]
    rw [List.filter_filter, List.filter_filter]
    apply List.filter_congr
    intro e _
    simp only [ltK, Bool.and_true]
    exact Bool.and_comm _ _
  | true =>
    simp only [if_true, scan, Option.map_some, okMin, okMax, Bool.and_true, Bool.true_and, later]
    rw [List.filter_reverse, List.filter_reverse, List.filter_filter, List.filter_filter]
    congr 1
    apply List.filter_congr
    intro e _
    simp only [ltK, Bool.and_true]
    exact Bool.and_comm _ _

theorem scanFrom_none {le : K → K → Bool} {es : List (K × V)} {desc : Bool} {f : V → Bool} :
    (scanFrom le es desc none).filter (fun e => f e.2) = rows le es desc f := by
  unfold scanFrom rows; cases desc <;> rfl

theorem rows_sorted {le : K → K → Bool} (h : Lin le) {es : List (K × V)} (hnd : (es.map Prod.fst).Nodup) (desc : Bool) (f : V → Bool) :
    (rows le es desc f).Pairwise (fun a b => later le desc a.1 b.1 = true) := by
  unfold rows later
  apply List.Pairwise.filter
  cases desc with
  | false => exact scan_strict h.total h.trans h.anti hnd none none
  | true => exact scan_strict_desc h.total h.trans h.anti hnd none none

theorem mem_rows {le : K → K → Bool} {es : List (K × V)} {desc : Bool} {f : V → Bool} {e : K × V} :
    e ∈ rows le es desc f ↔ e ∈ es ∧ f e.2 = true := by
  unfold rows; rw [List.mem_filter, mem_scan]; simp [okMin, okMax]

theorem later_irrefl {le : K → K → Bool} {desc : Bool} (a : K) : later le desc a a = false := by
  unfold later; cases desc <;> exact ltK_irrefl

theorem later_asymm {le : K → K → Bool} (h : Lin le) {desc : Bool} {a b : K} (hab : later le desc a b = true) :
    later le desc b a = false := by
  unfold later at *; cases desc <;> exact ltK_asymm h.trans hab

theorem later_trans {le : K → K → Bool} (h : Lin le) {desc : Bool} {a b c : K} (h1 : later le desc a b = true)
    (h2 : later le desc b c = true) : later le desc a c = true := by
  unfold later at *
  cases desc with
  | false => exact ltK_trans h.trans h1 h2
  | true => exact ltK_trans h.trans h2 h1

/-- Rows from a start offset. -/
def fromStart (le : K → K → Bool) (desc : Bool) (mk : O → K) (L : List (K × V)) : Option O → List (K × V)
  | none => L
  | some o => L.filter (fun e => later le desc (mk o) e.1)

theorem pages_eq {le : K → K → Bool} (h : Lin le) {desc : Bool} {L : List (K × V)}
    (hs : L.Pairwise (fun a b => later le desc a.1 b.1 = true)) {mk : O → K} {off : V → O} (hkey : ∀ e ∈ L, mk (off e.2) = e.1)
    {query : Option O → Option Nat → List V} {limit : Option Nat} {size : Nat}
    (hq : ∀ e ∈ L, query (some (off e.2)) limit = ((fromStart le desc mk L (some (off e.2))).take size).map Prod.snd) :
    ∀ n start, query start limit = ((fromStart le desc mk L start).take size).map Prod.snd → pages query off limit n start = ((fromStart le desc mk L start).take (n * size)).map Prod.snd
  | 0, start, _ => by simp [pages]
  | n + 1, start, h0 => by
    unfold pages
    rw [h0]
    generalize hM : fromStart le desc mk L start = M
    have hsub : ∀ e ∈ M, e ∈ L := by
      subst hM
      intro e he
      cases start with
      | none => exact he
      | some o => exact (List.mem_filter.mp he).1
    have hMs : M.Pairwise (fun a b => later le desc a.1 b.1 = true) := by
      subst hM
      cases start with
      | none => exact hs
      | some o => exact hs.filter _
    have htake : M.take ((n + 1) * size) = M.take size ++ (M.drop size).take (n * size) := by
      rw [Nat.succ_mul, Nat.add_comm, List.take_add]
    rw [htake, List.map_append, List.getLast?_map]
    cases hlast : (M.take size).getLast? with
    | none =>
      rw [List.getLast?_eq_none_iff] at hlast
      simp only [hlast, Option.map_none, List.map_nil, List.nil_append]
      rw [List.take_eq_nil_iff] at hlast
      rcases hlast with h | h
      · simp [h]
      · rw [h]; simp
    | some x =>
      have hxM : x ∈ M := List.mem_of_mem_take (List.mem_of_getLast? hlast)
      simp only [Option.map_some]
      rw [pages_eq h hs hkey hq n (some (off x.2)) (hq x (hsub x hxM))]
      congr 3
      have h1 : fromStart le desc mk L (some (off x.2)) = L.filter (fun e => later le desc x.1 e.1) := by
        show L.filter (fun e => later le desc (mk (off x.2)) e.1) = _
        rw [hkey x (hsub x hxM)]
      have h2 : M.filter (fun e => later le desc x.1 e.1) = M.drop size :=
        filter_after (lt := fun a b : K × V => later le desc a.1 b.1) (fun _ => later_irrefl _) (fun _ _ => later_asymm h) hMs hlast
      rw [h1, ← h2]
      subst hM
      cases start with
      | none => rfl
      | some o =>
        have hx' := (List.mem_filter.mp hxM).2
        unfold fromStart
        rw [List.filter_filter]
        apply List.filter_congr
        intro e _
        cases h3 : later le desc x.1 e.1
        · simp
        · simp only [Bool.true_and]
          rw [later_trans h hx' h3]

/-- One page of a query. -/
def page (le : K → K → Bool) (es : List (K × V)) (desc : Bool) (f : V → Bool) (start : Option K) (n : Nat) : List V :=
  (((scanFrom le es desc start).filter (fun e => f e.2)).take n).map Prod.snd

theorem page_eq {le : K → K → Bool} {es : List (K × V)} {desc : Bool} {f : V → Bool} {mk : O → K} {o : Option O} {n : Nat} :
    page le es desc f (o.map mk) n = ((fromStart le desc mk (rows le es desc f) o).take n).map Prod.snd := by
  unfold page
  cases o with
  | none => rw [Option.map_none, scanFrom_none]; rfl
  | some o => rw [Option.map_some, scanFrom_some]; rfl

end
end Verif

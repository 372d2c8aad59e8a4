/-
Entries of an index and pages of a query. `Spec.Paged` is the specification vocabulary of the query properties of
marketplace v1 and of the reserve auction.
-/
import Verif.Base.AMap
import Verif.Base.Lex

namespace Verif

/-- `limit.unwrap_or(DEFAULT_QUERY_LIMIT).min(MAX_QUERY_LIMIT)`: contracts/marketplace/src/query.rs 18-19,
contracts/reserve-auction/src/query.rs 10-11 (10 and 100) -/
def querySize (limit : Option Nat) : Nat := min (limit.getD 10) 100

/-- entries of an index under a prefix: values selected by `sel`, keyed by `key` of primary key and value -/
def index {K J V : Type} [DecidableEq K] (m : AMap K V) (sel : V → Bool) (key : K → V → J) : List (J × V) :=
  (m.l.filter (fun e => sel e.2)).map (fun e => (key e.1 e.2, e.2))

/-! ### Specification -/

namespace Spec

/-- Size of a page: 10 unless the client says otherwise, at most 100. -/
def pageSize : Option Nat → Nat
  | none => 10
  | some n => if n ≤ 100 then n else 100

/-- Paging through a query from `start`: there is one list `all` of the selected items that come after `start`, sorted by
`before` and without duplicates, and a client asking for `n` pages one after the other gets its first `n * pageSize`
items. -/
def Paged {V O : Type} (before : V → V → Prop) (after : O → V → Prop) (off : V → O) (sel : V → Prop)
    (query : Option O → Option Nat → List V) (start : Option O) (limit : Option Nat) : Prop :=
  ∃ all : List V,
    (∀ v, v ∈ all ↔ sel v ∧ ∀ o, start = some o → after o v) ∧ all.Nodup ∧ all.Pairwise before ∧
    ∀ n, pages query off limit n start = all.take (n * pageSize limit)

/-- Byte strings: shorter first, then by bytes. -/
def shortlex (a b : Bytes) : Prop := a.length < b.length ∨ (a.length = b.length ∧ bLe a b = true ∧ a ≠ b)

/-- Byte strings in dictionary order. -/
def dict (a b : Bytes) : Prop := bLe a b = true ∧ a ≠ b

end Spec
open Spec

theorem pageSize_eq (limit : Option Nat) : querySize limit = pageSize limit := by
  unfold querySize pageSize
  cases limit with
  | none => rfl
  | some n =>
    simp only [Option.getD_some, Nat.min_def]

theorem ltK_bLe {a b : Bytes} : ltK bLe a b = true ↔ dict a b := ltK_lin bytesLin

theorem ltK_lenLe {a b : Bytes} : ltK lenLe a b = true ↔ shortlex a b := by
  have h : ltK lenLe a b = ltK (lexLe natLe bLe) (a.length, a) (b.length, b) := rfl
  rw [h, ltK_lex natLin, ltK_nat, ltK_bLe]; rfl

theorem shortlex_irrefl {a : Bytes} : ¬ shortlex a a := by
  rintro (h | ⟨_, _, h⟩)
  · omega
  · exact h rfl

theorem dict_irrefl {a : Bytes} : ¬ dict a a := fun h => h.2 rfl

section
variable {K J V : Type} [DecidableEq K] {m : AMap K V} {sel : V → Bool} {key : K → V → J}

theorem mem_index {j : J} {v : V} : (j, v) ∈ index m sel key ↔ ∃ k, m.get? k = some v ∧ sel v = true ∧ key k v = j := by
  unfold index
  rw [List.mem_map]
  constructor
  · rintro ⟨⟨k, w⟩, h1, h2⟩
    rw [List.mem_filter] at h1
    cases h2
    exact ⟨k, AMap.mem_iff.mp h1.1, h1.2, rfl⟩
  · rintro ⟨k, h1, h2, h3⟩
    exact ⟨(k, v), List.mem_filter.mpr ⟨AMap.mem_iff.mpr h1, h2⟩, by rw [h3]⟩

theorem index_nodup (hinj : ∀ k v k' v', m.get? k = some v → sel v = true → m.get? k' = some v' → sel v' = true →
    key k v = key k' v' → k = k') : ((index m sel key).map Prod.fst).Nodup := by
  unfold index
  rw [List.map_map]
  have h := AMap.nodup_filter (fun e : K × V => sel e.2) m.nd
  rw [List.Nodup, List.pairwise_map] at h ⊢
  refine List.Pairwise.imp_of_mem ?_ h
  rintro ⟨k, v⟩ ⟨k', v'⟩ h1 h2 hne heq
  rw [List.mem_filter] at h1 h2
  exact hne (hinj k v k' v' (AMap.mem_iff.mp h1.1) h1.2 (AMap.mem_iff.mp h2.1) h2.2 heq)

theorem index_nodup' (back : J → K) (hb : ∀ k v, back (key k v) = k) : ((index m sel key).map Prod.fst).Nodup :=
  index_nodup (fun k v k' v' _ _ _ _ h => by rw [← hb k v, ← hb k' v', h])

end

section
variable {K V O : Type}

theorem paged_of {le : K → K → Bool} (h : Lin le) {es : List (K × V)} (hnd : (es.map Prod.fst).Nodup) {desc : Bool}
    {f : V → Bool} {mk : O → K} {off : V → O} (hkey : ∀ e ∈ es, f e.2 = true → mk (off e.2) = e.1)
    {query : Option O → Option Nat → List V} {start : Option O} {limit : Option Nat}
    (hq : ∀ e ∈ es, f e.2 = true → query (some (off e.2)) limit = page le es desc f (some (mk (off e.2))) (querySize limit))
    (h0 : query start limit = page le es desc f (start.map mk) (querySize limit))
    {sel : V → Prop} (hsel : ∀ v, sel v ↔ ∃ k, (k, v) ∈ es ∧ f v = true)
    {before : V → V → Prop} (hb : ∀ a b, sel a → sel b → later le desc (mk (off a)) (mk (off b)) = true → before a b)
    {after : O → V → Prop} (ha : ∀ o v, start = some o → sel v → (later le desc (mk o) (mk (off v)) = true ↔ after o v)) :
    Paged before after off sel query start limit := by
  have hs := rows_sorted h hnd desc f
  have hkey' : ∀ e ∈ rows le es desc f, mk (off e.2) = e.1 := fun e he => hkey e (mem_rows.mp he).1 (mem_rows.mp he).2
  have key := pages_eq h hs hkey' (query := query) (limit := limit) (size := querySize limit)
    (fun e he => by rw [hq e (mem_rows.mp he).1 (mem_rows.mp he).2]; exact page_eq (o := some (off e.2)))
  have hmem : ∀ e ∈ rows le es desc f, sel e.2 := fun e he => (hsel _).mpr ⟨e.1, mem_rows.mp he⟩
  have hM : ∀ e ∈ fromStart le desc mk (rows le es desc f) start, e ∈ rows le es desc f := by
    intro e he
    cases start with
    | none => exact he
    | some o => exact (List.mem_filter.mp he).1
  have hMs : (fromStart le desc mk (rows le es desc f) start).Pairwise (fun a b => later le desc a.1 b.1 = true) := by
    cases start with
    | none => exact hs
    | some o => exact hs.filter _
  refine ⟨(fromStart le desc mk (rows le es desc f) start).map Prod.snd, ?_, ?_, ?_, ?_⟩
  · intro v
    rw [List.mem_map]
    constructor
    · rintro ⟨e, he, rfl⟩
      refine ⟨hmem e (hM e he), ?_⟩
      intro o ho
      subst ho
      have h2 := List.mem_filter.mp he
      rw [← ha o _ rfl (hmem e h2.1), hkey' e h2.1]
      exact h2.2
    · rintro ⟨hv, hst⟩
      obtain ⟨k, h1, h2⟩ := (hsel v).mp hv
      have h3 : (k, v) ∈ rows le es desc f := mem_rows.mpr ⟨h1, h2⟩
      refine ⟨(k, v), ?_, rfl⟩
      cases start with
      | none => exact h3
      | some o =>
        refine List.mem_filter.mpr ⟨h3, ?_⟩
        have := (ha o v rfl hv).mpr (hst o rfl)
        rwa [hkey' _ h3] at this
  · rw [List.Nodup, List.pairwise_map]
    refine List.Pairwise.imp_of_mem ?_ hMs
    intro a b h1 h2 h3 h4
    rw [← hkey' a (hM a h1), ← hkey' b (hM b h2), h4, later_irrefl] at h3
    cases h3
  · rw [List.pairwise_map]
    refine List.Pairwise.imp_of_mem ?_ hMs
    intro a b h1 h2 h3
    apply hb _ _ (hmem a (hM a h1)) (hmem b (hM b h2))
    rw [hkey' a (hM a h1), hkey' b (hM b h2)]; exact h3
  · intro n
    rw [← pageSize_eq, key n start (by rw [h0]; exact page_eq), List.map_take]

/-- The common case: the query is a page for every offset. -/
theorem paged_of' {le : K → K → Bool} (h : Lin le) {es : List (K × V)} (hnd : (es.map Prod.fst).Nodup) {desc : Bool}
    {f : V → Bool} {mk : O → K} {off : V → O} (hkey : ∀ e ∈ es, mk (off e.2) = e.1)
    {query : Option O → Option Nat → List V} {start : Option O} {limit : Option Nat}
    (hq : ∀ o, query o limit = page le es desc f (o.map mk) (querySize limit))
    {sel : V → Prop} (hsel : ∀ v, sel v ↔ ∃ k, (k, v) ∈ es ∧ f v = true)
    {before : V → V → Prop} (hb : ∀ a b, sel a → sel b → later le desc (mk (off a)) (mk (off b)) = true → before a b)
    {after : O → V → Prop} (ha : ∀ o v, start = some o → sel v → (later le desc (mk o) (mk (off v)) = true ↔ after o v)) :
    Paged before after off sel query start limit :=
  paged_of h hnd (fun e he _ => hkey e he) (fun _ _ _ => hq _) (hq _) hsel hb ha

end
end Verif

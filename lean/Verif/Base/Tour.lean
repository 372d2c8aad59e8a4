/-
Paging through a listing while the state changes between the pages. Specification vocabulary of C154, and the argument: a page is the
beginning of the sorted list of what comes after the offset.
-/
import Verif.Base.Listing

namespace Verif

namespace Spec

/-- A page: the first `size` of the selected items that come after the offset. -/
def PageOf {V O : Type} (lt : O → O → Prop) (off : V → O) (sel : V → Prop) (size : Nat) (start : Option O) (pg : List V) : Prop :=
  ∃ all : List V, (∀ v, v ∈ all ↔ sel v ∧ ∀ o, start = some o → lt o (off v)) ∧
    all.Pairwise (fun a b => lt (off a) (off b)) ∧ pg = all.take size

/-- Where a client goes on after a page. -/
def goOn {V O : Type} (off : V → O) (pg : List V) (start : Option O) : Option O :=
  match pg.getLast? with
  | some v => some (off v)
  | none => start

/-- What a client sees that asks for one page in each of the given states, each page starting after the last item of the one before. -/
def tour {S V O : Type} (query : S → Option O → List V) (off : V → O) : List S → Option O → List V
  | [], _ => []
  | s :: rest, start => query s start ++ tour query off rest (goOn off (query s start) start)

/-- One of the pages was not full: the end of the listing has been reached. -/
def ends {S V O : Type} (query : S → Option O → List V) (off : V → O) (size : Nat) : List S → Option O → Prop
  | [], _ => False
  | s :: rest, start => (query s start).length < size ∨ ends query off size rest (goOn off (query s start) start)

/-- What a client can rely on when it pages while the state changes: the items come in order, so no place is shown twice; each was there in
the state its page was taken from; and once the end has been reached, every place after the start that was occupied in all of the states has
been shown. -/
structure Toured {S V O : Type} (lt : O → O → Prop) (off : V → O) (sel : S → V → Prop) (size : Nat) (query : S → Option O → List V)
    (states : List S) (start : Option O) : Prop where
  sorted : (tour query off states start).Pairwise (fun a b => lt (off a) (off b))
  sound : ∀ v ∈ tour query off states start, ∃ s ∈ states, sel s v
  complete : ends query off size states start → ∀ o, (∀ o', start = some o' → lt o' o) →
    (∀ s ∈ states, ∃ v, sel s v ∧ off v = o) → ∃ v ∈ tour query off states start, off v = o

end Spec
open Spec

section
variable {S V O : Type} {lt : O → O → Prop} {off : V → O} {sel : S → V → Prop} {size : Nat} {query : S → Option O → List V}

theorem page_after {P : V → Prop} {start : Option O} {pg : List V} (h : PageOf lt off P size start pg) :
    pg.Pairwise (fun a b => lt (off a) (off b)) ∧ ∀ v ∈ pg, P v ∧ ∀ o, start = some o → lt o (off v) := by
  obtain ⟨all, h1, h2, rfl⟩ := h
  exact ⟨h2.sublist (List.take_sublist _ _), fun v hv => (h1 v).mp (List.mem_of_mem_take hv)⟩

theorem last_max {pg : List V} (h : pg.Pairwise (fun a b => lt (off a) (off b))) {k : V} (hk : pg.getLast? = some k) :
    ∀ a ∈ pg, a = k ∨ lt (off a) (off k) := by
  intro a ha
  obtain ⟨ys, rfl⟩ := List.getLast?_eq_some_iff.mp hk
  rcases List.mem_append.mp ha with h1 | h1
  · exact .inr ((List.pairwise_append.mp h).2.2 a h1 k (by simp))
  · exact .inl (by simpa using h1)

theorem goOn_ok {ok : Option O → Prop} {start : Option O} (h0 : ok start) {pg : List V} (h : ∀ v ∈ pg, ok (some (off v))) :
    ok (goOn off pg start) := by
  unfold goOn
  split
  · rename_i k hk
    exact h k (List.mem_of_getLast? hk)
  · exact h0

/-- Everything shown comes after the start, in order, and was there. -/
theorem tour_sorted (htr : ∀ a b c, lt a b → lt b c → lt a c) {ok : Option O → Prop} :
    ∀ (states : List S) (start : Option O), ok start → (∀ s ∈ states, ∀ st, ok st → PageOf lt off (sel s) size st (query s st)) →
    (∀ s ∈ states, ∀ v, sel s v → ok (some (off v))) →
    (tour query off states start).Pairwise (fun a b => lt (off a) (off b)) ∧
      (∀ v ∈ tour query off states start, ∀ o, start = some o → lt o (off v)) ∧
      ∀ v ∈ tour query off states start, ∃ s ∈ states, sel s v
  | [], _, _, _, _ => ⟨List.Pairwise.nil, (fun _ h => nomatch h), (fun _ h => nomatch h)⟩
  | s :: rest, start, h0, hp, hok => by
    obtain ⟨p1, p2⟩ := page_after (hp s List.mem_cons_self start h0)
    obtain ⟨t1, t2, t3⟩ := tour_sorted htr rest (goOn off (query s start) start)
      (goOn_ok h0 (fun v hv => hok s List.mem_cons_self v (p2 v hv).1))
      (fun s' h => hp s' (List.mem_cons_of_mem _ h)) (fun s' h => hok s' (List.mem_cons_of_mem _ h))
    have hnext : ∀ v ∈ tour query off rest (goOn off (query s start) start),
        (∀ a ∈ query s start, lt (off a) (off v)) ∧ ∀ o, start = some o → lt o (off v) := by
      intro v hv
      have h2 := t2 v hv
      unfold goOn at h2
      cases hk : (query s start).getLast? with
      | none =>
        rw [hk] at h2
        rw [List.getLast?_eq_none_iff] at hk
        rw [hk]
        exact ⟨(fun a ha => nomatch ha), h2⟩
      | some k =>
        rw [hk] at h2
        have h3 := h2 _ rfl
        have hkm : k ∈ query s start := List.mem_of_getLast? hk
        refine ⟨fun a ha => ?_, fun o ho => htr _ _ _ ((p2 k hkm).2 o ho) h3⟩
        rcases last_max p1 hk a ha with rfl | h4
        · exact h3
        · exact htr _ _ _ h4 h3
    refine ⟨List.pairwise_append.mpr ⟨p1, t1, fun a ha b hb => (hnext b hb).1 a ha⟩, ?_, ?_⟩
    · intro v hv
      rcases List.mem_append.mp hv with h | h
      · exact (p2 v h).2
      · exact (hnext v h).2
    · intro v hv
      rcases List.mem_append.mp hv with h | h
      · exact ⟨s, List.mem_cons_self, (p2 v h).1⟩
      · obtain ⟨s', h1, h2⟩ := t3 v h
        exact ⟨s', List.mem_cons_of_mem _ h1, h2⟩

theorem tour_complete {ok : Option O → Prop} : ∀ (states : List S) (start : Option O), ok start →
    (∀ s ∈ states, ∀ st, ok st → PageOf lt off (sel s) size st (query s st)) → (∀ s ∈ states, ∀ v, sel s v → ok (some (off v))) →
    ends query off size states start → ∀ o, (∀ o', start = some o' → lt o' o) →
    (∀ s ∈ states, ∃ v, sel s v ∧ off v = o) → ∃ v ∈ tour query off states start, off v = o
  | [], _, _, _, _, h, _, _, _ => h.elim
  | s :: rest, start, h0, hp, hok, hend, o, ho, hv => by
    obtain ⟨v, h1, h2⟩ := hv s List.mem_cons_self
    obtain ⟨all, a1, a2, a3⟩ := hp s List.mem_cons_self start h0
    have hmem : v ∈ all := (a1 v).mpr ⟨h1, fun o' h => h2.symm ▸ ho o' h⟩
    by_cases hin : v ∈ query s start
    · exact ⟨v, List.mem_append_left _ hin, h2⟩
    · have hend' : ends query off size rest (goOn off (query s start) start) := by
        rcases hend with h | h
        · exfalso
          rw [a3, List.length_take] at h
          apply hin
          rw [a3, List.take_of_length_le (by omega)]
          exact hmem
        · exact h
      obtain ⟨w, hw, hwo⟩ := tour_complete rest (goOn off (query s start) start)
        (goOn_ok h0 (fun v hv => hok s List.mem_cons_self v ((a1 v).mp (List.mem_of_mem_take (a3 ▸ hv))).1))
        (fun s' h => hp s' (List.mem_cons_of_mem _ h)) (fun s' h => hok s' (List.mem_cons_of_mem _ h)) hend' o
        (by
          intro o' ho'
          unfold goOn at ho'
          split at ho'
          · rename_i k hk
            cases ho'
            have hkm : k ∈ all.take size := a3 ▸ List.mem_of_getLast? hk
            have hvd : v ∈ all.drop size := by
              rcases List.mem_append.mp ((List.take_append_drop size all).symm ▸ hmem) with h | h
              · exact absurd (a3.symm ▸ h) hin
              · exact h
            rw [← List.take_append_drop size all] at a2
            rw [← h2]
            exact (List.pairwise_append.mp a2).2.2 k hkm v hvd
          · exact ho o' ho')
        (fun s' h => hv s' (List.mem_cons_of_mem _ h))
      exact ⟨w, List.mem_append_right _ hw, hwo⟩

theorem toured_on (ok : Option O → Prop) (htr : ∀ a b c, lt a b → lt b c → lt a c) {states : List S} {start : Option O} (h0 : ok start)
    (hp : ∀ s ∈ states, ∀ st, ok st → PageOf lt off (sel s) size st (query s st)) (hok : ∀ s ∈ states, ∀ v, sel s v → ok (some (off v))) :
    Toured lt off sel size query states start :=
  ⟨(tour_sorted htr states start h0 hp hok).1, (tour_sorted htr states start h0 hp hok).2.2, tour_complete states start h0 hp hok⟩

theorem toured (htr : ∀ a b c, lt a b → lt b c → lt a c) {states : List S} {start : Option O}
    (hp : ∀ s ∈ states, ∀ st, PageOf lt off (sel s) size st (query s st)) : Toured lt off sel size query states start :=
  toured_on (fun _ => True) htr trivial (fun s h st _ => hp s h st) (fun _ _ _ _ => trivial)

end

theorem pages_one {V O : Type} {query : Option O → Option Nat → List V} {off : V → O} {limit : Option Nat} {start : Option O} :
    pages query off limit 1 start = query start limit := by
  unfold pages
  split <;> simp [pages]

/-- A query that pages through one state shows pages. -/
theorem Spec.Paged.page {V O : Type} {lt : O → O → Prop} {off : V → O} {sel : V → Prop} {query : Option O → Option Nat → List V}
    {start : Option O} {limit : Option Nat}
    (h : Paged (fun a b => lt (off a) (off b)) (fun o v => lt o (off v)) off sel query start limit) :
    PageOf lt off sel (pageSize limit) start (query start limit) := by
  obtain ⟨all, h1, _, h3, h4⟩ := h
  refine ⟨all, h1, h3, ?_⟩
  have := h4 1
  rw [Nat.one_mul] at this
  rw [← this, pages_one]

end Verif

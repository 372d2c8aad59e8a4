/-
What single accounts receive, and sums over maps. Shared by the properties about the money of one account (C125-C127).
-/
import Verif.Base.Chain
import Verif.Base.AMap

namespace Verif

/-- Coins of denom `d` that the messages send to `a`. -/
def sentTo (a : Addr) (d : Denom) : List Msg → Nat
  | [] => 0
  | .send to cs :: ms => (if to = a then amountOf d cs else 0) + sentTo a d ms
  | _ :: ms => sentTo a d ms

theorem sentTo_append (a : Addr) (d : Denom) : ∀ x y : List Msg, sentTo a d (x ++ y) = sentTo a d x + sentTo a d y
  | [], y => by simp [sentTo]
  | m :: x, y => by
    have ih := sentTo_append a d x y
    cases m <;> simp only [List.cons_append, sentTo, ih]
    omega

/-- What one account is paid out of a list of payments. -/
def share (a : Addr) (pays : List (Addr × Nat)) : Nat := ((pays.filter (fun x => decide (x.1 = a))).map Prod.snd).sum

theorem sentTo_pays (a : Addr) (d dn : Denom) : ∀ pays : List (Addr × Nat),
    sentTo a d (pays.map (fun x => .send x.1 [⟨dn, x.2⟩])) = if dn = d then share a pays else 0
  | [] => by simp [sentTo, share]
  | x :: l => by
    have ih := sentTo_pays a d dn l
    simp only [List.map_cons, sentTo, ih, share, List.filter_cons, amountOf, Coin.inDenom]
    by_cases h1 : x.1 = a <;> by_cases h2 : dn = d <;> simp [h1, h2]

theorem sentTo_none {a : Addr} {d : Denom} : ∀ {ms : List Msg}, (∀ m ∈ ms, ∀ cs, m ≠ .send a cs) → sentTo a d ms = 0
  | [], _ => rfl
  | m :: ms, h => by
    have ih := sentTo_none (d := d) (fun m hm => h m (List.mem_cons_of_mem _ hm))
    have h0 := h m List.mem_cons_self
    cases m with
    | send to cs =>
      have : to ≠ a := fun e => h0 cs (by rw [e])
      simp only [sentTo, if_neg this, ih]
    | _ => exact ih

namespace AMap
variable {K V : Type} [DecidableEq K]

theorem sum_of_none {m : AMap K V} (h : ∀ k, m.get? k = none) (f : V → Nat) : m.sum f = 0 := by
  obtain ⟨l, nd⟩ := m
  cases l with
  | nil => rfl
  | cons x l => have := h x.1; simp [get?] at this

/-- Sums depend on the contents only, not on the order in which they were stored. -/
theorem sum_ext (f : V → Nat) : ∀ {n : Nat} {m m' : AMap K V}, m.l.length = n → (∀ k, m.get? k = m'.get? k) →
    m.sum f = m'.sum f := by
  intro n
  induction n with
  | zero =>
    intro m m' hn h
    have hm : ∀ k, m.get? k = none := by
      intro k
      cases hk : m.get? k with
      | none => rfl
      | some v => have := mem_iff.mpr hk; rw [List.length_eq_zero_iff.mp hn] at this; cases this
    rw [sum_of_none hm, sum_of_none (fun k => (h k).symm.trans (hm k))]
  | succ n ih =>
    intro m m' hn h
    have hne : m.l ≠ [] := by intro e; rw [e] at hn; cases hn
    obtain ⟨x, hx⟩ := List.exists_mem_of_ne_nil _ hne
    have hk := mem_iff.mp (show (x.1, x.2) ∈ m.l from hx)
    have h1 := sum_erase_of_get? f hk
    have h2 := sum_erase_of_get? f ((h x.1).symm.trans hk)
    have hlen : (m.erase x.1).l.length = n := by
      have e := sum_erase_of_get? (fun _ => 1) hk
      simp only [sum, vals, List.map_map] at e
      have c : ∀ l : List (K × V), (l.map ((fun _ => 1) ∘ Prod.snd)).sum = l.length := by
        intro l; induction l with
        | nil => rfl
        | cons y l ih => simp only [List.map_cons, List.sum_cons, List.length_cons, ih, Function.comp]; omega
      rw [c, c] at e
      omega
    have := ih (m' := m'.erase x.1) hlen (by intro k; rw [get?_erase, get?_erase, h k])
    omega

end AMap
end Verif

namespace Verif
namespace AMap
variable {K V : Type} [DecidableEq K]

/-- Sum over the entries of `m` whose key is no longer in `m'`. -/
def goneSum (m m' : AMap K V) (f : V → Nat) : Nat :=
  ((m.l.filter (fun x => (m'.get? x.1).isNone)).map (fun x => f x.2)).sum

theorem sum_zero {m : AMap K V} {f : V → Nat} (h : ∀ k v, m.get? k = some v → f v = 0) : m.sum f = 0 := by
  have : ∀ l : List (K × V), (∀ x ∈ l, f x.2 = 0) → ((l.map Prod.snd).map f).sum = 0 := by
    intro l
    induction l with
    | nil => intro _; rfl
    | cons x l ih =>
      intro hl
      have h1 := hl x List.mem_cons_self
      have h2 := ih (fun y hy => hl y (List.mem_cons_of_mem _ hy))
      simp only [List.map_cons, List.sum_cons, h1, h2]
  exact this m.l (fun x hx => h x.1 x.2 (mem_iff.mp hx))

/-- If entries only leave, or come in with weight 0, or change without changing weight, the weight that leaves the sum is
that of the entries that left. -/
theorem sum_gone (f : V → Nat) : ∀ (l : List (K × V)) (nd : (l.map Prod.fst).Nodup) (m' : AMap K V),
    (∀ k v', m'.get? k = some v' → (∃ v, (AMap.mk l nd).get? k = some v ∧ f v = f v') ∨ f v' = 0) →
    (∀ k v, (AMap.mk l nd).get? k = some v → ∀ v', m'.get? k = some v' → f v = f v') →
    (AMap.mk l nd).sum f = m'.sum f + goneSum (AMap.mk l nd) m' f
  | [], nd, m', h, _ => by
    have : m'.sum f = 0 := sum_zero (fun k v hv => by
      rcases h k v hv with ⟨v0, h0, _⟩ | h0
      · cases h0
      · exact h0)
    rw [this]; rfl
  | x :: l, nd, m', h, hw => by
    obtain ⟨k, v⟩ := x
    have ndl : (l.map Prod.fst).Nodup := (List.nodup_cons.mp nd).2
    have hk : k ∉ l.map Prod.fst := (List.nodup_cons.mp nd).1
    have hself : (AMap.mk ((k, v) :: l) nd).get? k = some v := by simp [get?]
    have hne : ∀ k', k' ≠ k → (AMap.mk ((k, v) :: l) nd).get? k' = (AMap.mk l ndl).get? k' := by
      intro k' e; simp [get?, Ne.symm e]
    have hnone : (AMap.mk l ndl).get? k = none := by
      cases hg : (AMap.mk l ndl).get? k with
      | none => rfl
      | some w => exact absurd (List.mem_map_of_mem (f := Prod.fst) (mem_iff.mpr hg)) hk
    have ih := sum_gone f l ndl (m'.erase k) ?_ ?_
    · have hrest : (l.filter (fun x => ((m'.erase k).get? x.1).isNone)) = l.filter (fun x => (m'.get? x.1).isNone) := by
        apply List.filter_congr
        intro y hy
        have : k ≠ y.1 := fun e => hk (e ▸ List.mem_map_of_mem (f := Prod.fst) hy)
        rw [get?_erase, if_neg this]
      have hs : (AMap.mk ((k, v) :: l) nd).sum f = f v + (AMap.mk l ndl).sum f := by simp [sum, vals]
      have he := sum_erase m' k f
      unfold goneSum at ih ⊢
      rw [hrest] at ih
      rw [hs, ih, List.filter_cons]
      cases hm : m'.get? k with
      | none =>
        rw [hm] at he
        simp only [Option.map_none, Option.getD_none] at he
        simp only [Option.isNone_none, if_true, List.map_cons, List.sum_cons]
        omega
      | some v' =>
        rw [hm] at he
        have := hw k v hself v' hm
        simp only [Option.map_some, Option.getD_some] at he
        simp only [Option.isNone_some, Bool.false_eq_true, if_false]
        omega
    · intro k' v' hv'
      rw [get?_erase] at hv'
      split at hv'
      · cases hv'
      case isFalse e =>
        rcases h k' v' hv' with ⟨w, h1, h2⟩ | h0
        · exact .inl ⟨w, by rw [← hne k' (fun e' => e e'.symm)]; exact h1, h2⟩
        · exact .inr h0
    · intro k' w hw' v' hv'
      rw [get?_erase] at hv'
      split at hv'
      · cases hv'
      case isFalse e => exact hw k' w (by rw [hne k' (fun e' => e e'.symm)]; exact hw') v' hv'

theorem goneSum_zero {m m' : AMap K V} {f : V → Nat} (h : ∀ k v, m.get? k = some v → m'.get? k = none → f v = 0) :
    goneSum m m' f = 0 := by
  unfold goneSum
  have : ∀ l : List (K × V), (∀ x ∈ l, m.get? x.1 = some x.2) →
      ((l.filter (fun x => (m'.get? x.1).isNone)).map (fun x => f x.2)).sum = 0 := by
    intro l
    induction l with
    | nil => intro _; rfl
    | cons x l ih =>
      intro hl
      have h2 := ih (fun y hy => hl y (List.mem_cons_of_mem _ hy))
      rw [List.filter_cons]
      split
      case isTrue e =>
        have := h x.1 x.2 (hl x List.mem_cons_self) (Option.isNone_iff_eq_none.mp e)
        simp only [List.map_cons, List.sum_cons, this, h2]
      · exact h2
  exact this m.l (fun x hx => mem_iff.mp hx)

end AMap
end Verif

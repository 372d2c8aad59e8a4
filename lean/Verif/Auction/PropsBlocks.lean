/-
Reserve auction: the order of calls about different tokens does not matter (C136).
-/
import Verif.Auction.PropsAlone

namespace Verif.Auction
open Verif Spec

section
variable {p : Params} {me : Addr}

/-! ### Specification -/

/-- A call waiting to be executed. -/
structure Spec.Tx where
  ctx : Ctx
  sender : Addr
  funds : List Coin
  msg : Exec

def Spec.Tx.key (c : Tx) : Key := keyOf c.msg

/-- What the caller sees: an error or the messages. -/
def Spec.reply (r : Res (State × List Msg)) : Res (List Msg) := r.map Prod.snd

/-- The state after a call; a failed call changes nothing. -/
def Spec.after (p : Params) (c : Tx) (s : State) : State :=
  match execute p c.ctx c.sender c.funds c.msg s with
  | .ok x => x.1
  | .error _ => s

/-- The state after a list of calls, one after the other. -/
def Spec.playAll (p : Params) : List Tx → State → State
  | [], s => s
  | c :: l, s => playAll p l (after p c s)

/-- The replies to the calls about token `k` of a list. -/
def Spec.replies (p : Params) (k : Key) : List Tx → State → List (Res (List Msg))
  | [], _ => []
  | c :: l, s =>
    if c.key = k then reply (execute p c.ctx c.sender c.funds c.msg s) :: replies p k l (after p c s) else replies p k l (after p c s)

/-- The calls about token `k`, in their order. -/
def Spec.about (k : Key) (l : List Tx) : List Tx := l.filter (fun c => decide (c.key = k))

/-- Calls of accounts other than the contract, to the contract. -/
def Spec.Proper (self : Addr) (l : List Tx) : Prop := ∀ c ∈ l, c.ctx.self = self ∧ c.sender ≠ self

/-! ### Lemmas -/

theorem after_reach {c : Tx} {s : State} (hr : Reach p me s) (h : c.ctx.self = me ∧ c.sender ≠ me) : Reach p me (after p c s) := by
  unfold after
  split
  · rename_i x hx; exact hr.step (.call (msgs := x.2) h.1 h.2 hx)
  · exact hr

/-- A call about `k` in two states that agree about `k`. -/
theorem after_same {c : Tx} {s t : State} (hs : Reach p me s) (ht : Reach p me t) (e : only c.key s = only c.key t) :
    only c.key (after p c s) = only c.key (after p c t) ∧
    reply (execute p c.ctx c.sender c.funds c.msg s) = reply (execute p c.ctx c.sender c.funds c.msg t) := by
  have h1 := C123_alone (ctx := c.ctx) (sender := c.sender) (funds := c.funds) hs (m := c.msg) (k := c.key) rfl
  have h2 := C123_alone (ctx := c.ctx) (sender := c.sender) (funds := c.funds) ht (m := c.msg) (k := c.key) rfl
  rw [e, h2] at h1
  unfold after
  cases hx : execute p c.ctx c.sender c.funds c.msg s with
  | error x =>
    rw [hx] at h1
    cases hy : execute p c.ctx c.sender c.funds c.msg t with
    | error y => rw [hy] at h1; cases h1; exact ⟨e, rfl⟩
    | ok y => rw [hy] at h1; cases h1
  | ok x =>
    rw [hx] at h1
    cases hy : execute p c.ctx c.sender c.funds c.msg t with
    | error y => rw [hy] at h1; cases h1
    | ok y =>
      rw [hy] at h1
      have h3 : (only c.key y.1, y.2) = (only c.key x.1, x.2) := Except.ok.inj h1
      injection h3 with h4 h5
      exact ⟨h4.symm, congrArg Except.ok h5.symm⟩

theorem after_other {c : Tx} {s : State} (hs : Reach p me s) {k : Key} (hk : c.key ≠ k) : only k (after p c s) = only k s := by
  unfold after
  split
  · rename_i x hx; exact C123_others hs (msgs := x.2) hk hx
  · rfl

/-- Only the calls about `k` matter to `k`. -/
theorem play_about {k : Key} : ∀ {l : List Tx}, Proper me l → ∀ {s t : State}, Reach p me s → Reach p me t → only k s = only k t →
    only k (playAll p l s) = only k (playAll p (about k l) t) ∧ replies p k l s = replies p k (about k l) t
  | [], _, s, t, _, _, e => ⟨e, rfl⟩
  | c :: l, hp, s, t, hs, ht, e => by
    have hc := hp c List.mem_cons_self
    have hl : Proper me l := fun x hx => hp x (List.mem_cons_of_mem _ hx)
    by_cases hk : c.key = k
    · subst hk
      obtain ⟨h1, h2⟩ := after_same hs ht e
      obtain ⟨h3, h4⟩ := play_about hl (after_reach hs hc) (after_reach ht hc) h1
      have ha : about c.key (c :: l) = c :: about c.key l := by simp [about]
      rw [ha]
      refine ⟨h3, ?_⟩
      simp only [replies, if_pos, h2, h4]
    · have ha : about k (c :: l) = about k l := by simp [about, hk]
      rw [ha]
      obtain ⟨h3, h4⟩ := play_about hl (after_reach hs hc) ht ((after_other hs hk).trans e)
      refine ⟨h3, ?_⟩
      simp only [replies, if_neg hk, h4]

/-! ### Properties -/

/-- A list of calls may be put into any other order that keeps the order of the calls about each token: every call gets the same reply
(error or messages), and the contract ends with the same auctions and everything else the same. -/
theorem C136_order {s : State} (hr : Reach p me s) {l l' : List Tx} (hl : Proper me l) (hl' : Proper me l')
    (h : ∀ k, about k l = about k l') (k : Key) :
    replies p k l s = replies p k l' s ∧ (playAll p l s).auctions.get? k = (playAll p l' s).auctions.get? k ∧
    { playAll p l s with auctions := s.auctions } = { playAll p l' s with auctions := s.auctions } := by
  obtain ⟨h1, h2⟩ := play_about (k := k) hl hr hr rfl
  obtain ⟨h3, h4⟩ := play_about (k := k) hl' hr hr rfl
  rw [h k] at h1 h2
  have h5 := h1.trans h3.symm
  refine ⟨h2.trans h4.symm, ?_, ?_⟩
  · rw [← only_get k (playAll p l s), h5, only_get]
  · exact congrArg (fun x : State => { x with auctions := s.auctions }) h5

/-- In particular two calls about different tokens may be swapped. -/
theorem C136_swap {s s1 s12 : State} (hr : Reach p me s) {a b : Tx} (ha : a.ctx.self = me ∧ a.sender ≠ me)
    (hb : b.ctx.self = me ∧ b.sender ≠ me) (hne : a.key ≠ b.key) {ma mb : List Msg}
    (h1 : execute p a.ctx a.sender a.funds a.msg s = .ok (s1, ma)) (h2 : execute p b.ctx b.sender b.funds b.msg s1 = .ok (s12, mb)) :
    ∃ s2 s21, execute p b.ctx b.sender b.funds b.msg s = .ok (s2, mb) ∧ execute p a.ctx a.sender a.funds a.msg s2 = .ok (s21, ma) ∧
      (∀ k, s21.auctions.get? k = s12.auctions.get? k) ∧ { s21 with auctions := s.auctions } = { s12 with auctions := s.auctions } := by
  have e1 : after p a s = s1 := by unfold after; rw [h1]
  have e2 : after p b s1 = s12 := by unfold after; rw [h2]
  have hr1 : Reach p me s1 := e1 ▸ after_reach hr ha
  have okb : ∃ s2, execute p b.ctx b.sender b.funds b.msg s = .ok (s2, mb) := by
    have := (after_same (c := b) hr hr1 (by rw [← e1]; exact (after_other hr hne).symm)).2
    rw [h2] at this
    cases hx : execute p b.ctx b.sender b.funds b.msg s with
    | error e => rw [hx] at this; cases this
    | ok x => rw [hx] at this; exact ⟨x.1, by rw [← show x.2 = mb from Except.ok.inj this]⟩
  obtain ⟨s2, h3⟩ := okb
  have e3 : after p b s = s2 := by unfold after; rw [h3]
  have hr2 : Reach p me s2 := e3 ▸ after_reach hr hb
  have oka : ∃ s21, execute p a.ctx a.sender a.funds a.msg s2 = .ok (s21, ma) := by
    have := (after_same (c := a) hr2 hr (by rw [← e3]; exact after_other hr (Ne.symm hne))).2
    rw [h1] at this
    cases hx : execute p a.ctx a.sender a.funds a.msg s2 with
    | error e => rw [hx] at this; cases this
    | ok x => rw [hx] at this; exact ⟨x.1, by rw [← show x.2 = ma from Except.ok.inj this]⟩
  obtain ⟨s21, h4⟩ := oka
  have e4 : after p a s2 = s21 := by unfold after; rw [h4]
  have hord := C136_order hr (l := [b, a]) (l' := [a, b]) (p := p) (me := me)
    (by intro c hc; simp only [List.mem_cons, List.not_mem_nil, or_false] at hc; rcases hc with rfl | rfl <;> assumption)
    (by intro c hc; simp only [List.mem_cons, List.not_mem_nil, or_false] at hc; rcases hc with rfl | rfl <;> assumption) (by
      intro k
      by_cases h5 : a.key = k <;> by_cases h6 : b.key = k
      · exact absurd (h5.trans h6.symm) hne
      all_goals simp [about, h5, h6])
  simp only [playAll, e1, e2, e3, e4] at hord
  exact ⟨s2, s21, h3, h4, fun k => (hord k).2.1, (hord a.key).2.2⟩

namespace Sample
/-- Bob bids on one token and carol on another, either way round. -/
def txB : Tx := ⟨ctx 1000000, bob, [⟨ust, 100⟩], .bid coll tok⟩
def txA : Tx := ⟨ctx 1000000 (some alice), alice, [⟨ust, 5⟩], .create coll [50] ⟨ust, 100⟩ 60 none⟩
def txC : Tx := ⟨ctx 1000000, carol, [⟨ust, 90⟩], .bid coll [50]⟩
example : Proper self [txB, txA, txC] ∧ Proper self [txA, txC, txB] := by
  constructor <;> intro c hc <;> simp only [List.mem_cons, List.not_mem_nil, or_false] at hc <;>
    rcases hc with rfl | rfl | rfl <;> exact ⟨rfl, by decide⟩
example : ∀ k, about k [txB, txA, txC] = about k [txA, txC, txB] := by
  intro k
  have h1 : txB.key = (coll, tok) := rfl
  have h2 : txA.key = (coll, [50]) := rfl
  have h3 : txC.key = (coll, [50]) := rfl
  have hne : (coll, tok) ≠ (coll, [50]) := by decide
  by_cases h : (coll, tok) = k
  · subst h; simp [about, h1, h2, h3, hne.symm]
  · by_cases h' : (coll, [50]) = k
    · subst h'; simp [about, h1, h2, h3, hne]
    · simp [about, h1, h2, h3, h, h']
example : ok txB.ctx txB.sender txB.funds txB.msg s2 = true ∧ ok txA.ctx txA.sender txA.funds txA.msg s2 = true ∧
    ok txC.ctx txC.sender txC.funds txC.msg s2 = false := by decide +kernel
example (h : Proper self [txB, txA, txC]) (h' : Proper self [txA, txC, txB]) (e : ∀ k, about k [txB, txA, txC] = about k [txA, txC, txB]) :=
  C136_order r2 h h' e
example := C136_swap (a := txB) (b := txA) r2 ⟨rfl, by decide⟩ ⟨rfl, by decide⟩ (by decide)
  (run_eq (c := txB.ctx) (sender := txB.sender) (funds := txB.funds) (m := txB.msg) (by decide +kernel))
  (run_eq (c := txA.ctx) (sender := txA.sender) (funds := txA.funds) (m := txA.msg) (by decide +kernel))
end Sample

end
end Verif.Auction

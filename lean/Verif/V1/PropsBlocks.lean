/-
Marketplace v1: the order of calls about different orders does not matter (C137).
-/
import Verif.V1.PropsAlone

namespace Verif.V1
open Verif Spec

section
variable {p : Params} {me : Addr}

/-! ### Specification -/

/-- A call waiting to be executed. -/
structure Spec.Tx where
  ctx : Ctx
  sender : Addr
  funds : List Coin
  msg : Exec

/-- What the caller sees: an error or the messages. -/
def Spec.reply (r : Res (State × List Msg)) : Res (List Msg) := r.map Prod.snd

/-- The reply to a call in state `s`. -/
def Spec.answer (p : Params) (c : Tx) (s : State) : Res (List Msg) := reply (execute p c.ctx c.sender c.funds c.msg s)

/-- The state after a call; a failed call changes nothing. -/
def Spec.after (p : Params) (c : Tx) (s : State) : State :=
  match execute p c.ctx c.sender c.funds c.msg s with
  | .ok x => x.1
  | .error _ => s

/-- The state after a list of calls, one after the other. -/
def Spec.playAll (p : Params) : List Tx → State → State
  | [], s => s
  | c :: l, s => playAll p l (after p c s)

/-- The replies to the calls about collection `k` of a list. -/
def Spec.replies (p : Params) (k : Addr) : List Tx → State → List (Res (List Msg))
  | [], _ => []
  | c :: l, s => if collOf c.msg = k then answer p c s :: replies p k l (after p c s) else replies p k l (after p c s)

/-- The calls about collection `k`, in their order. -/
def Spec.about (k : Addr) (l : List Tx) : List Tx := l.filter (fun c => decide (collOf c.msg = k))

/-- The two calls have no listing, bid or collection bid in common. -/
def Spec.Apart (a b : Tx) : Prop :=
  (∀ k, namesAsk a.msg = some k → namesAsk b.msg ≠ some k) ∧ (∀ k, namesBid a.sender a.msg = some k → namesBid b.sender b.msg ≠ some k) ∧
  (∀ k, namesCBid a.sender a.msg = some k → namesCBid b.sender b.msg ≠ some k)

/-- Same orders under the same keys, and everything else the same. -/
structure Spec.Alike (s t : State) : Prop where
  asks : ∀ k, s.asks.get? k = t.asks.get? k
  bids : ∀ k, s.bids.get? k = t.bids.get? k
  cbids : ∀ k, s.cbids.get? k = t.cbids.get? k
  rest : { s with asks := t.asks, bids := t.bids, cbids := t.cbids } = t

/-! ### Lemmas -/

/-- A call in two states that agree about the orders it names. -/
theorem after_same {r : Region} {c : Tx} {s t : State} (hm : Inside r c.sender c.msg) (e : only r s = only r t) :
    only r (after p c s) = only r (after p c t) ∧ answer p c s = answer p c t := by
  have h1 := C124_local (p := p) (s := s) (ctx := c.ctx) (funds := c.funds) hm
  have h2 := C124_local (p := p) (s := t) (ctx := c.ctx) (funds := c.funds) hm
  rw [e, h2] at h1
  unfold after answer
  cases hx : execute p c.ctx c.sender c.funds c.msg s with
  | error x =>
    rw [hx] at h1
    cases hy : execute p c.ctx c.sender c.funds c.msg t with
    | error y => rw [hy] at h1; cases h1; exact ⟨e, rfl⟩
    | ok y => rw [hy] at h1; cases h1
  | ok x =>
    rw [hx] at h1
    cases hy : execute p c.ctx c.sender c.funds c.msg t with
    | error y => rw [hy] at h1; cases h1
    | ok y =>
      rw [hy] at h1
      have h3 : (only r y.1, y.2) = (only r x.1, x.2) := Except.ok.inj h1
      injection h3 with h4 h5
      exact ⟨h4.symm, congrArg Except.ok h5.symm⟩

theorem after_other {r : Region} {c : Tx} {s : State} (hm : Outside r c.sender c.msg) : only r (after p c s) = only r s := by
  unfold after
  split
  · rename_i x hx; exact C124_others (msgs := x.2) hm hx
  · rfl

/-- Two states that agree on a region. -/
theorem only_eq {r : Region} {s t : State} (e : only r s = only r t) :
    (∀ k, r.ask k = true → s.asks.get? k = t.asks.get? k) ∧ (∀ k, r.bid k = true → s.bids.get? k = t.bids.get? k) ∧
    (∀ k, r.cbid k = true → s.cbids.get? k = t.cbids.get? k) ∧
    { s with asks := t.asks, bids := t.bids, cbids := t.cbids } = t := by
  refine ⟨?_, ?_, ?_, ?_⟩
  · intro k hk
    have h : ∀ u : State, (only r u).asks.get? k = u.asks.get? k := fun u => AMap.get?_keep_pos fun _ _ => hk
    rw [← h s, e, h t]
  · intro k hk
    have h : ∀ u : State, (only r u).bids.get? k = u.bids.get? k := fun u => AMap.get?_keep_pos fun _ _ => hk
    rw [← h s, e, h t]
  · intro k hk
    have h : ∀ u : State, (only r u).cbids.get? k = u.cbids.get? k := fun u => AMap.get?_keep_pos fun _ _ => hk
    rw [← h s, e, h t]
  · exact congrArg (fun x : State => { x with asks := t.asks, bids := t.bids, cbids := t.cbids }) e

/-- Only the calls about `k` matter to `k`. -/
theorem play_about {k : Addr} : ∀ {l : List Tx} {s t : State}, only (ofColl k) s = only (ofColl k) t →
    only (ofColl k) (playAll p l s) = only (ofColl k) (playAll p (about k l) t) ∧ replies p k l s = replies p k (about k l) t
  | [], s, t, e => ⟨e, rfl⟩
  | c :: l, s, t, e => by
    by_cases hk : collOf c.msg = k
    · obtain ⟨h1, h2⟩ := after_same (p := p) (C124_collection.1 hk) e
      obtain ⟨h3, h4⟩ := play_about (l := l) h1
      have ha : about k (c :: l) = c :: about k l := by simp [about, hk]
      rw [ha]
      refine ⟨h3, ?_⟩
      simp only [replies, if_pos hk, h2, h4]
    · have ha : about k (c :: l) = about k l := by simp [about, hk]
      rw [ha]
      obtain ⟨h3, h4⟩ := play_about (l := l) ((after_other (p := p) (C124_collection.2 hk)).trans e)
      refine ⟨h3, ?_⟩
      simp only [replies, if_neg hk, h4]

/-! ### Properties -/

/-- A list of calls may be put into any other order that keeps the order of the calls about each collection: every call gets the same
reply (error or messages), and the marketplace ends with the same orders and everything else the same. -/
theorem C137_order {s : State} {l l' : List Tx} (h : ∀ k, about k l = about k l') :
    (∀ k, replies p k l s = replies p k l' s) ∧ Alike (playAll p l s) (playAll p l' s) := by
  have both : ∀ k, only (ofColl k) (playAll p l s) = only (ofColl k) (playAll p l' s) ∧ replies p k l s = replies p k l' s := by
    intro k
    obtain ⟨h1, h2⟩ := play_about (p := p) (k := k) (l := l) (s := s) rfl
    obtain ⟨h3, h4⟩ := play_about (p := p) (k := k) (l := l') (s := s) rfl
    rw [h k] at h1 h2
    exact ⟨h1.trans h3.symm, h2.trans h4.symm⟩
  refine ⟨fun k => (both k).2, ⟨?_, ?_, ?_, ?_⟩⟩
  · intro k; exact (only_eq (both k.1).1).1 k (decide_eq_true rfl)
  · intro k; exact (only_eq (both k.1).1).2.1 k (decide_eq_true rfl)
  · intro k; exact (only_eq (both k.1).1).2.2.1 k (decide_eq_true rfl)
  · exact (only_eq (both []).1).2.2.2

/-- Two calls that have no order in common get the same replies in either order, and leave the same behind; whether they succeed or
not. -/
theorem C137_swap {s : State} {a b : Tx} (h : Apart a b) :
    answer p b (after p a s) = answer p b s ∧ answer p a (after p b s) = answer p a s ∧
    Alike (after p b (after p a s)) (after p a (after p b s)) := by
  let own : Tx → Region := fun c => ⟨fun k => decide (namesAsk c.msg = some k), fun k => decide (namesBid c.sender c.msg = some k),
    fun k => decide (namesCBid c.sender c.msg = some k)⟩
  let neither : Region := ⟨fun k => decide (namesAsk a.msg ≠ some k ∧ namesAsk b.msg ≠ some k),
    fun k => decide (namesBid a.sender a.msg ≠ some k ∧ namesBid b.sender b.msg ≠ some k),
    fun k => decide (namesCBid a.sender a.msg ≠ some k ∧ namesCBid b.sender b.msg ≠ some k)⟩
  have ina : Inside (own a) a.sender a.msg := ⟨fun k hk => decide_eq_true hk, fun k hk => decide_eq_true hk, fun k hk => decide_eq_true hk⟩
  have inb : Inside (own b) b.sender b.msg := ⟨fun k hk => decide_eq_true hk, fun k hk => decide_eq_true hk, fun k hk => decide_eq_true hk⟩
  have outb : Outside (own a) b.sender b.msg := ⟨fun k hk => decide_eq_false fun e => h.1 k e hk,
    fun k hk => decide_eq_false fun e => h.2.1 k e hk, fun k hk => decide_eq_false fun e => h.2.2 k e hk⟩
  have outa : Outside (own b) a.sender a.msg := ⟨fun k hk => decide_eq_false fun e => h.1 k hk e,
    fun k hk => decide_eq_false fun e => h.2.1 k hk e, fun k hk => decide_eq_false fun e => h.2.2 k hk e⟩
  have na : Outside neither a.sender a.msg :=
    ⟨fun k hk => decide_eq_false fun e => e.1 hk, fun k hk => decide_eq_false fun e => e.1 hk, fun k hk => decide_eq_false fun e => e.1 hk⟩
  have nb : Outside neither b.sender b.msg :=
    ⟨fun k hk => decide_eq_false fun e => e.2 hk, fun k hk => decide_eq_false fun e => e.2 hk, fun k hk => decide_eq_false fun e => e.2 hk⟩
  have ha := after_same (p := p) ina (after_other (p := p) (s := s) outb)
  have hb := after_same (p := p) inb (after_other (p := p) (s := s) outa)
  have e1 : only (own a) (after p b (after p a s)) = only (own a) (after p a (after p b s)) := (after_other outb).trans ha.1.symm
  have e2 : only (own b) (after p b (after p a s)) = only (own b) (after p a (after p b s)) := hb.1.trans (after_other outa).symm
  have e3 : only neither (after p b (after p a s)) = only neither (after p a (after p b s)) := by
    rw [after_other nb, after_other na, after_other na, after_other nb]
  obtain ⟨x1, x2, x3, x4⟩ := only_eq e1
  obtain ⟨y1, y2, y3, _⟩ := only_eq e2
  obtain ⟨z1, z2, z3, _⟩ := only_eq e3
  refine ⟨hb.2, ha.2, ⟨?_, ?_, ?_, x4⟩⟩
  · intro k
    by_cases h1 : namesAsk a.msg = some k
    · exact x1 k (decide_eq_true h1)
    · by_cases h2 : namesAsk b.msg = some k
      · exact y1 k (decide_eq_true h2)
      · exact z1 k (decide_eq_true ⟨h1, h2⟩)
  · intro k
    by_cases h1 : namesBid a.sender a.msg = some k
    · exact x2 k (decide_eq_true h1)
    · by_cases h2 : namesBid b.sender b.msg = some k
      · exact y2 k (decide_eq_true h2)
      · exact z2 k (decide_eq_true ⟨h1, h2⟩)
  · intro k
    by_cases h1 : namesCBid a.sender a.msg = some k
    · exact x3 k (decide_eq_true h1)
    · by_cases h2 : namesCBid b.sender b.msg = some k
      · exact y3 k (decide_eq_true h2)
      · exact z3 k (decide_eq_true ⟨h1, h2⟩)

namespace Sample
/-- Carol's purchase and bob's withdrawal of the bid on the same token have no order in common. -/
def txBuy : Tx := ⟨ctx 1002, carol, us 101, buyMsg⟩
def txGone : Tx := ⟨ctx 1002, bob, [], .removeBid coll 1⟩
theorem txApart : Apart txBuy txGone := by
  refine ⟨?_, ?_, ?_⟩ <;> rintro k ⟨⟩ <;> decide +kernel
example : ok txBuy.ctx txBuy.sender txBuy.funds txBuy.msg s6 = true ∧ ok txGone.ctx txGone.sender txGone.funds txGone.msg s6 = true := by
  decide +kernel
example := C137_swap (p := P) (s := s6) txApart
def txElse : Tx := ⟨ctx 1002, bob, [], .removeCollectionBid [77]⟩
example : ∀ k, about k [txBuy, txElse, txGone] = about k [txBuy, txGone, txElse] := by
  intro k
  have h0 : collOf txBuy.msg = coll := rfl
  have h1 : collOf txGone.msg = coll := rfl
  have h2 : collOf txElse.msg = [77] := rfl
  have hne : coll ≠ [77] := by decide
  by_cases h : coll = k
  · subst h; simp [about, h0, h1, h2, hne.symm]
  · by_cases h' : [77] = k
    · subst h'; simp [about, h0, h1, h2, hne]
    · simp [about, h0, h1, h2, h, h']
example (h : ∀ k, about k [txBuy, txElse, txGone] = about k [txBuy, txGone, txElse]) := C137_order (p := P) (s := s6) h
end Sample

end
end Verif.V1

/-
Marketplace v2: what has been done to a bid cannot be done again: C164.
-/
import Verif.V2.PropsPurse

namespace Verif.V2
open Verif Spec

/-- The call names the bid. -/
def Spec.NamesBid (id : Bytes) : Exec → Prop
  | .acceptBid i _ | .updateBid i _ | .removeBid i => i = id
  | _ => False

/-- The call names the collection bid. -/
def Spec.NamesCBid (id : Bytes) : Exec → Prop
  | .acceptCollectionBid i _ _ | .updateCollectionBid i _ | .removeCollectionBid i => i = id
  | _ => False

/-- The call asks to fill or to withdraw the bid. -/
def Spec.EndsBid (id : Bytes) : Exec → Prop
  | .acceptBid i _ | .removeBid i => i = id
  | _ => False

/-- The call asks to fill or to withdraw the collection bid. -/
def Spec.EndsCBid (id : Bytes) : Exec → Prop
  | .acceptCollectionBid i _ _ | .removeCollectionBid i => i = id
  | _ => False

section
variable {p : Params} {me : Addr}

/-- The id was given out for a bid. -/
def Issued (p : Params) (id : Bytes) (s : State) : Prop := ∃ x h n, n ≤ s.nonce ∧ id = p.hash (x ++ be8 h ++ be8 n)

theorem Issued.mono {id : Bytes} {s s' : State} (h : Issued p id s) (hle : s.nonce ≤ s'.nonce) : Issued p id s' := by
  obtain ⟨x, k, n, hn, e⟩ := h
  exact ⟨x, k, n, Nat.le_trans hn hle, e⟩

theorem Issued.ne {id : Bytes} {s : State} (h : Issued p id s) (hinj : HashInj p) (hlt : s.nonce + 1 < 2^64) (y : Bytes) (k : Nat) :
    id ≠ p.hash (y ++ be8 k ++ be8 (nextNonce s)) := by
  obtain ⟨x, k', n, hn, e⟩ := h
  intro e'
  rw [e] at e'
  have := append_be8_inj (by omega) (by rw [nextNonce_eq hlt]; exact hlt) (hinj _ _ e')
  rw [nextNonce_eq hlt] at this
  omega

theorem nonce_ge {ctx : Ctx} {sender : Addr} {funds : List Coin} {m : Exec} {s s' : State} {msgs : List Msg} (hlt : s.nonce + 1 < 2^64)
    (hx : execute p ctx sender funds m s = .ok (s', msgs)) : s.nonce ≤ s'.nonce := by
  have hn := nextNonce_eq hlt
  cases execute_eff hx <;> simp only [afterSale_nonce, bump] <;> omega

theorem none_shrink {V : Type} {a b : AMap Bytes V} {id : Bytes} (h : ∀ {v}, b.get? id = some v → a.get? id = some v) (hn : a.get? id = none) :
    b.get? id = none := by
  cases e : b.get? id with
  | none => rfl
  | some v => rw [h e] at hn; cases hn

/-- An id that was given out and is not open stays so. -/
theorem gone_step (hinj : HashInj p) {ctx : Ctx} {sender : Addr} {funds : List Coin} {m : Exec} {s s' : State} {msgs : List Msg}
    (hw : WF p s) (hlt : s.nonce + 1 < 2^64) {id : Bytes} (hi : Issued p id s) (hx : execute p ctx sender funds m s = .ok (s', msgs)) :
    (s.bids.get? id = none → s'.bids.get? id = none) ∧ (s.cbids.get? id = none → s'.cbids.get? id = none) := by
  have sh : Shrink s s' → (s.bids.get? id = none → s'.bids.get? id = none) ∧ (s.cbids.get? id = none → s'.cbids.get? id = none) :=
    fun h => ⟨none_shrink h.bid, none_shrink h.cbid⟩
  cases execute_eff hx with
  | config | denom | setFee | rmFee | restAsk | updAsk | rmAsk => exact ⟨fun h => h, fun h => h⟩
  | sellAsk | updSell | updBuy | accBid | updCBuy | accCBid => exact sh (afterSale_shrink _ _ _)
  | accAsk | buyBid | buyCBid => exact sh (afterSale_bump_shrink _ _ _)
  | restBid coll tok =>
    refine ⟨fun h => ?_, fun h => h⟩
    simp only [AMap.get?_insert]
    split
    case isTrue hk => exact absurd hk (hi.ne hinj hlt (coll ++ tok) ctx.height).symm
    case isFalse => exact h
  | restCBid coll =>
    refine ⟨fun h => h, fun h => ?_⟩
    simp only [AMap.get?_insert]
    split
    case isTrue hk => exact absurd hk (hi.ne hinj hlt coll ctx.height).symm
    case isFalse => exact h
  | updBid i d b fn fa left hd hb =>
    refine ⟨fun h => ?_, fun h => h⟩
    simp only [AMap.get?_insert]
    split
    case isTrue hk => rw [← hk, (hw.bid hb).1, hb] at h; cases h
    case isFalse => exact h
  | updCBid i d b fn fa left hd hb =>
    refine ⟨fun h => h, fun h => ?_⟩
    simp only [AMap.get?_insert]
    split
    case isTrue hk => rw [← hk, (hw.cbid hb).1, hb] at h; cases h
    case isFalse => exact h
  | rmBid => exact ⟨none_shrink erase_sub, fun h => h⟩
  | rmCBid => exact ⟨fun h => h, none_shrink erase_sub⟩

/-- A call that names a bid needs it. -/
theorem names_open {ctx : Ctx} {sender : Addr} {funds : List Coin} {m : Exec} {s s' : State} {msgs : List Msg} {id : Bytes}
    (hx : execute p ctx sender funds m s = .ok (s', msgs)) :
    (NamesBid id m → s.bids.get? id ≠ none) ∧ (NamesCBid id m → s.cbids.get? id ≠ none) := by
  constructor
  · intro hn e
    cases m <;> try exact hn.elim
    all_goals
      cases hn
      cases execute_eff hx <;> simp_all
  · intro hn e
    cases m <;> try exact hn.elim
    all_goals
      cases hn
      cases execute_eff hx <;> simp_all

/-- A call that fills or withdraws a bid closes it. -/
theorem ends_closed {ctx : Ctx} {sender : Addr} {funds : List Coin} {m : Exec} {s s' : State} {msgs : List Msg} {id : Bytes}
    (hw : WF p s) (hx : execute p ctx sender funds m s = .ok (s', msgs)) :
    (EndsBid id m → s'.bids.get? id = none) ∧ (EndsCBid id m → s'.cbids.get? id = none) := by
  constructor
  · intro hn
    cases m <;> try exact hn.elim
    all_goals
      cases hn
      have hb := fun b (h : s.bids.get? id = some b) => (hw.bid h).1
      cases execute_eff hx <;> simp_all [afterSale, removeMatching]
  · intro hn
    cases m <;> try exact hn.elim
    all_goals
      cases hn
      have hb := fun b (h : s.cbids.get? id = some b) => (hw.cbid h).1
      cases execute_eff hx <;> simp_all [afterSale, removeMatching]

/-- Split a history at a call. -/
theorem diary_split {s0 s : State} {x : Act} {a b : List Act} (h : Diary p me s0 (a ++ x :: b) s) :
    Diary p me s0 (x :: b) x.after := by
  induction a generalizing s with
  | nil => cases h with | call hd h1 h2 h3 => exact .call hd h1 h2 h3
  | cons y a ih => cases h with | call hd => exact ih hd

/-- After a call that closes a bid, no successful call of the history names it. -/
theorem C164_closed (hinj : HashInj p) {c : Config} {s0 s : State} {x : Act} {a b : List Act} (hi : instantiate p c = .ok s0)
    (h : Diary p me s0 (a ++ x :: b) s) (hn : (a ++ x :: b).length + 1 < 2^64) {id : Bytes} :
    (x.before.bids.get? id ≠ none → x.after.bids.get? id = none → s.bids.get? id = none ∧ ∀ y ∈ a, ¬ NamesBid id y.msg) ∧
    (x.before.cbids.get? id ≠ none → x.after.cbids.get? id = none → s.cbids.get? id = none ∧ ∀ y ∈ a, ¬ NamesCBid id y.msg) := by
  have key : (x.before.bids.get? id ≠ none ∨ x.before.cbids.get? id ≠ none) → Issued p id s ∧
      (x.after.bids.get? id = none → s.bids.get? id = none ∧ ∀ y ∈ a, ¬ NamesBid id y.msg) ∧
      (x.after.cbids.get? id = none → s.cbids.get? id = none ∧ ∀ y ∈ a, ¬ NamesCBid id y.msg) := by
    intro ho
    induction a generalizing s with
    | nil =>
      cases h with
      | call hd h1 h2 h3 =>
        obtain ⟨hr, hl⟩ := diary_reach hi hd (by simp at hn; omega)
        have hlt : _ + 1 < 2^64 := Nat.lt_of_le_of_lt (Nat.succ_le_succ hl) (by simp at hn; omega)
        refine ⟨Issued.mono ?_ (nonce_ge hlt h3), fun e => ⟨e, fun _ h => (by cases h)⟩, fun e => ⟨e, fun _ h => (by cases h)⟩⟩
        rcases ho with ho | ho
        · obtain ⟨v, hv⟩ := Option.ne_none_iff_exists'.mp ho
          exact (Spec.Reach.nonce hr).bid hv
        · obtain ⟨v, hv⟩ := Option.ne_none_iff_exists'.mp ho
          exact (Spec.Reach.nonce hr).cbid hv
    | cons y a ih =>
      cases h with
      | call hd h1 h2 h3 =>
        have hn' : (a ++ x :: b).length + 2 < 2^64 := by simp at hn ⊢; omega
        change Diary p me s0 (a ++ x :: b) _ at hd
        obtain ⟨hr, hl⟩ := diary_reach hi hd (by omega)
        have hlt : _ + 1 < 2^64 := Nat.lt_of_le_of_lt (Nat.succ_le_succ hl) (by omega)
        obtain ⟨i1, i2, i3⟩ := ih hd (by omega)
        have g := gone_step hinj (Spec.Reach.wf hr) hlt i1 h3
        have o := names_open (id := id) h3
        refine ⟨i1.mono (nonce_ge hlt h3), fun e => ⟨g.1 (i2 e).1, fun z hz => ?_⟩, fun e => ⟨g.2 (i3 e).1, fun z hz => ?_⟩⟩
        · rcases List.mem_cons.mp hz with rfl | hz
          · exact fun hm => o.1 hm (i2 e).1
          · exact (i2 e).2 z hz
        · rcases List.mem_cons.mp hz with rfl | hz
          · exact fun hm => o.2 hm (i3 e).1
          · exact (i3 e).2 z hz
  exact ⟨fun h => (key (Or.inl h)).2.1, fun h => (key (Or.inr h)).2.2⟩

/-- A bid is filled or withdrawn by a call that names it at most once in a history, and not changed afterwards. -/
theorem C164_once (hinj : HashInj p) {c : Config} {s0 s : State} {x : Act} {a b : List Act} (hi : instantiate p c = .ok s0)
    (h : Diary p me s0 (a ++ x :: b) s) (hn : (a ++ x :: b).length + 1 < 2^64) {id : Bytes} :
    (EndsBid id x.msg → ∀ y ∈ a, ¬ NamesBid id y.msg) ∧ (EndsCBid id x.msg → ∀ y ∈ a, ¬ NamesCBid id y.msg) := by
  have hc := C164_closed hinj hi h hn (id := id)
  have hs := diary_split h
  have e : ∃ ctx sender funds msgs, execute p ctx sender funds x.msg x.before = .ok (x.after, msgs) ∧ WF p x.before := by
    cases hs with
    | call hd h1 h2 h3 => exact ⟨_, _, _, _, h3, Spec.Reach.wf (diary_reach hi hd (by simp at hn; omega)).1⟩
  obtain ⟨ctx, sender, funds, msgs, hx, hw⟩ := e
  have o := names_open (id := id) hx
  have n := ends_closed (id := id) hw hx
  constructor
  · intro he
    exact (hc.1 (o.1 (by revert he; cases x.msg <;> exact fun h => (by first | exact h | exact h.elim))) (n.1 he)).2
  · intro he
    exact (hc.2 (o.2 (by revert he; cases x.msg <;> exact fun h => (by first | exact h | exact h.elim))) (n.2 he)).2

/-- A call that names a bid which has been closed fails, whoever makes it and whatever is attached. -/
theorem C164_again (hinj : HashInj p) {c : Config} {s0 s : State} {x : Act} {a b : List Act} (hi : instantiate p c = .ok s0)
    (h : Diary p me s0 (a ++ x :: b) s) (hn : (a ++ x :: b).length + 1 < 2^64) {id : Bytes} {ctx : Ctx} {sender : Addr} {funds : List Coin}
    {m : Exec} (hm : x.before.bids.get? id ≠ none ∧ x.after.bids.get? id = none ∧ NamesBid id m ∨
      x.before.cbids.get? id ≠ none ∧ x.after.cbids.get? id = none ∧ NamesCBid id m) :
    ∃ e, execute p ctx sender funds m s = .error e := by
  have hc := C164_closed hinj hi h hn (id := id)
  cases hx : execute p ctx sender funds m s with
  | error e => exact ⟨e, rfl⟩
  | ok r =>
    exfalso
    have o := names_open (id := id) hx
    rcases hm with ⟨h1, h2, h3⟩ | ⟨h1, h2, h3⟩
    · exact o.1 h3 (hc.1 h1 h2).1
    · exact o.2 h3 (hc.2 h1 h2).1

end

namespace Sample
/-- carol's bid is filled by alice's new price, then bob withdraws, then the fee is changed -/
def actR : Act := act (ctx (some self)) bob [] (.removeBid bid) s5p
@[inherit_doc actR] def actF : Act := act (ctx none) admin [] (.setListingFee ⟨ust, 6⟩) actR.after
theorem diaryR : Diary P self s0 (actF :: actR :: diary) actF.after :=
  note (note diary_ok rfl (by decide) (by decide +kernel)) rfl (by decide) (by decide +kernel)
example := (C164_once hashInj init0 (a := [actF]) (b := diary) diaryR (by decide) (id := bid)).1 rfl
example := (C164_closed hashInj init0 (a := [actF, actR]) (b := diary.tail) diaryR (by decide) (id := cid)).2 (by decide +kernel)
  (by decide +kernel)
example := C164_again hashInj init0 (a := [actF]) (b := diary) diaryR (by decide) (id := bid) (ctx := ctx (some self)) (sender := bob)
  (funds := []) (m := .removeBid bid) (Or.inl ⟨by decide +kernel, by decide +kernel, rfl⟩)
end Sample
end Verif.V2

/-
The chain machine with a bank that refuses payments to some addresses, as banks do for the accounts of modules.
-/
import Verif.Base.Ledger
import Verif.Base.Drain

namespace Verif
section
variable {σ κ υ : Type}

/-- What can happen if `blk` receive no payments: they call nobody, and a payment to them fails. -/
def Entry.accepted (blk : Addr → Prop) : Entry κ υ → Prop
  | .call sender _ _ _ => ¬ blk sender
  | .paid to _ => ¬ blk to
  | _ => True

/-- Runs of the machine on such a chain. -/
def Sys.StepsB (S : Sys σ κ υ) (blk : Addr → Prop) (a b : World σ × List Msg) : Prop :=
  ∃ es, S.Hist a es b ∧ ∀ e ∈ es, e.accepted blk

variable {S : Sys σ κ υ} {blk : Addr → Prop}

theorem Sys.StepsB.steps {a b : World σ × List Msg} (h : S.StepsB blk a b) : S.Steps a b := h.choose_spec.1.steps

theorem Sys.StepsB.refl (a : World σ × List Msg) : S.StepsB blk a a := ⟨[], .nil, fun _ h => nomatch h⟩

theorem Sys.StepsB.tail {a b c : World σ × List Msg} {e : Entry κ υ} (h : S.StepsB blk a b) (hd : S.Did b e c)
    (he : e.accepted blk) : S.StepsB blk a c := by
  obtain ⟨es, h, hes⟩ := h
  exact ⟨e :: es, .cons h hd, fun x hx => (List.mem_cons.1 hx).elim (fun h => h ▸ he) (hes x)⟩

/-- Invariant rule. -/
theorem Sys.StepsB.inv {P : World σ × List Msg → Prop} {a b : World σ × List Msg} (h : S.StepsB blk a b)
    (hstep : ∀ b e c, S.StepsB blk a b → P b → S.Did b e c → e.accepted blk → P c) (ha : P a) : P b := by
  obtain ⟨es, h, hes⟩ := h
  induction h with
  | nil => exact ha
  | @cons es e b c h hd ih =>
    have hes' : ∀ x ∈ es, x.accepted blk := fun x hx => hes x (List.mem_cons_of_mem _ hx)
    exact hstep b e c ⟨es, h, hes'⟩ (ih hes') hd (hes e List.mem_cons_self)

theorem Sys.StepsB.trans {a b c : World σ × List Msg} (h1 : S.StepsB blk a b) (h2 : S.StepsB blk b c) : S.StepsB blk a c :=
  h2.inv (P := S.StepsB blk a) (fun _ _ _ _ hb hd he => hb.tail hd he) h1

theorem Sys.StepsB.single {a b : World σ × List Msg} {e : Entry κ υ} (hd : S.Did a e b) (he : e.accepted blk) :
    S.StepsB blk a b := Sys.StepsB.tail (.refl a) hd he

/-- The world right after a call: the attached funds have come in and the new state is stored, the messages are still to be done. -/
def World.begun (w : World σ) (me sender : Addr) (funds : List Coin) (s' : σ) : World σ :=
  { w with bank := moveFunds w.bank sender me funds, st := s' }

/-- The call takes place and all its messages are executed, which leads to `w'`. -/
def Sys.Completes (S : Sys σ κ υ) (blk : Addr → Prop) (w : World σ) (sender : Addr) (funds : List Coin) (s' : σ) (msgs : List Msg)
    (w' : World σ) : Prop :=
  S.StepsB blk (w, []) (w.begun S.self sender funds s', msgs) ∧ S.StepsB blk (w.begun S.self sender funds s', msgs) (w', [])

/-- A payment that is refused is pending. -/
def Refused (blk : Addr → Prop) (stack : List Msg) : Prop := ∃ to cs, blk to ∧ Msg.send to cs ∈ stack

/-- A refused payment stays pending, so that the transaction does not complete. -/
theorem Refused.did {a b : World σ × List Msg} {e : Entry κ υ} (h : Refused blk a.2) (hd : S.Did a e b)
    (he : e.accepted blk) : Refused blk b.2 := by
  obtain ⟨to, cs, hb, hm⟩ := h
  have pop : ∀ {m : Msg} {rest : List Msg}, Msg.send to cs ∈ m :: rest → m ≠ .send to cs → Refused blk rest :=
    fun hm hne => ⟨to, cs, hb, (List.mem_cons.1 hm).resolve_left (fun h => hne h.symm)⟩
  cases hd with
  | call w stack sender funds m q s' msgs hctl hne hfunds hq hex => exact ⟨to, cs, hb, List.mem_append_right _ hm⟩
  | sudo w m q s' msgs hq hex => cases hm
  | env w w' stack hctl h => exact ⟨to, cs, hb, hm⟩
  | block w t h ht hh => cases hm
  | send w to' cs' rest hne hpos hbal =>
    refine pop hm (fun e => ?_)
    cases e; exact he hb
  | fairBurn w cs rest hbal => exact pop hm (by intro e; cases e)
  | nft w c t to rest o hh ho hauth => exact pop hm (by intro e; cases e)
  | initRoyalty w r c rest => exact pop hm (by intro e; cases e)
  | ret w m rest hf => exact pop hm (by rintro rfl; exact hf)

theorem Refused.stays {a b : World σ × List Msg} (h : Refused blk a.2) (hs : S.StepsB blk a b) : Refused blk b.2 :=
  hs.inv (P := fun x => Refused blk x.2) (fun _ _ _ _ hb hd he => hb.did hd he) h

/-- The transaction never completes. -/
theorem Refused.never {a : World σ × List Msg} (h : Refused blk a.2) (w : World σ) : ¬ S.StepsB blk a (w, []) := by
  intro hs
  obtain ⟨_, _, _, hm⟩ := h.stays hs
  cases hm

/-- Payments covered by the balance, to addresses that are not refused, are carried out. -/
theorem Sys.StepsB.payments {rest : List Msg} : ∀ {ms : List Msg} {w : World σ},
    (∀ m ∈ ms, (∃ to cs, m = .send to cs ∧ cs ≠ [] ∧ (∀ c ∈ cs, 0 < c.amount) ∧ ¬ blk to) ∨ ∃ cs, m = .fairBurn cs) →
    (∀ d, outflow d ms ≤ w.bank S.self d) → ∃ bank', S.StepsB blk (w, ms ++ rest) ({ w with bank := bank' }, rest)
  | [], w, _, _ => ⟨w.bank, .refl _⟩
  | m :: ms, w, hp, hb => by
    rcases hp m List.mem_cons_self with ⟨to, cs, rfl, h1, h2, h3⟩ | ⟨cs, rfl⟩
    · have hd : S.Did (w, .send to cs :: (ms ++ rest)) (.paid to cs) ({ w with bank := moveFunds w.bank S.self to cs }, ms ++ rest) := by
        refine .send w to cs _ h1 h2 ?_
        intro d; have := hb d; simp only [outflow_cons, Msg.out] at this; omega
      obtain ⟨b', h4⟩ := payments (rest := rest) (ms := ms) (w := { w with bank := moveFunds w.bank S.self to cs })
        (fun m hm => hp m (List.mem_cons_of_mem _ hm)) (by
          intro d
          have := hb d
          have h3 := moveFunds_from_ge (bank := w.bank) (a := S.self) (b := to) (cs := cs) d
          simp only [outflow_cons, Msg.out] at *; omega)
      exact ⟨b', (Sys.StepsB.single hd h3).trans h4⟩
    · have hd : S.Did (w, .fairBurn cs :: (ms ++ rest)) .other ({ w with bank := takeFunds w.bank S.self cs }, ms ++ rest) := by
        refine .fairBurn w cs _ ?_
        intro d; have := hb d; simp only [outflow_cons, Msg.out] at this; omega
      obtain ⟨b', h4⟩ := payments (rest := rest) (ms := ms) (w := { w with bank := takeFunds w.bank S.self cs })
        (fun m hm => hp m (List.mem_cons_of_mem _ hm)) (by
          intro d
          have := hb d
          simp only [outflow_cons, Msg.out, takeFunds, if_true] at *; omega)
      exact ⟨b', (Sys.StepsB.single hd trivial).trans h4⟩

/-- Fine messages that move no token twice and pay nobody who is refused are all executed, if the balance suffices. -/
theorem Sys.drainB : ∀ (ms rest : List Msg) (w : World σ), ¬ Refused blk ms → (∀ m ∈ ms, S.Fine w.owner w.approved m) →
    (ms.filterMap Msg.token).Nodup →
    (∀ d, outflow d ms ≤ w.bank S.self d) →
    ∃ w', S.StepsB blk (w, ms ++ rest) (w', rest) ∧ w'.st = w.st ∧ w'.approved = w.approved ∧ w'.time = w.time ∧ w'.height = w.height ∧
      (∀ x d, x ≠ S.self → w'.bank x d = w.bank x d + gets x d ms) ∧
      (∀ d, w.bank S.self d ≤ w'.bank S.self d + outflow d ms) ∧
      (∀ c t to, Msg.nft c t to ∈ ms → w'.owner c t = some to) ∧
      (∀ c t, (∀ to, Msg.nft c t to ∉ ms) → w'.owner c t = w.owner c t)
  | [], rest, w, _, _, _, _ => ⟨w, .refl _, rfl, rfl, rfl, rfl, by simp [gets], by simp, by simp, by simp⟩
  | m :: ms, rest, w, hnb, hf, hc, hb => by
    have hnb' : ¬ Refused blk ms := fun ⟨to, cs, h1, h2⟩ => hnb ⟨to, cs, h1, List.mem_cons_of_mem _ h2⟩
    have hm := hf m (by simp)
    cases m with
    | send to cs =>
      have hcnt : (ms.filterMap Msg.token).Nodup := by simpa [Msg.token, List.filterMap_cons] using hc
      have hbal : ∀ d, amountOf d cs ≤ w.bank S.self d := by
        intro d; have := hb d; rw [outflow_cons, Msg.out_send] at this; omega
      have h1 := Sys.Did.send (S := S) w to cs (ms ++ rest) hm.1 hm.2 hbal
      have hacc : ¬ blk to := fun h => hnb ⟨to, cs, h, List.mem_cons_self⟩
      obtain ⟨w', hs, e1, e2, e3, e4, b1, b2, o1, o2⟩ := Sys.drainB ms rest { w with bank := moveFunds w.bank S.self to cs } hnb'
        (fun x hx => hf x (List.mem_cons_of_mem _ hx))
        hcnt
        (fun d => by
          have h1 := hb d
          have h2 := moveFunds_from_ge (bank := w.bank) (a := S.self) (b := to) (cs := cs) d
          rw [outflow_cons, Msg.out_send] at h1
          show outflow d ms ≤ moveFunds w.bank S.self to cs S.self d
          omega)
      refine ⟨w', (Sys.StepsB.single h1 hacc).trans hs, e1, e2, e3, e4, ?_, ?_, ?_, ?_⟩
      · intro x d hx
        rw [b1 x d hx]
        simp only [gets]
        by_cases e : to = x
        · subst e
          show moveFunds w.bank S.self to cs to d + _ = _
          rw [moveFunds_to (Ne.symm hx), if_pos rfl]; omega
        · show moveFunds w.bank S.self to cs x d + _ = _
          rw [moveFunds_other hx (Ne.symm e), if_neg e]; omega
      · intro d
        have h1 := b2 d
        have h2 := moveFunds_from_ge (bank := w.bank) (a := S.self) (b := to) (cs := cs) d
        have h3 : moveFunds w.bank S.self to cs S.self d ≤ w'.bank S.self d + outflow d ms := h1
        rw [outflow_cons, Msg.out_send]; omega
      · intro c t to' h
        exact o1 c t to' (by simpa using h)
      · intro c t h
        exact o2 c t (fun to' h' => h to' (List.mem_cons_of_mem _ h'))
    | nft c t to =>
      have hc' : (c, t) ∉ ms.filterMap Msg.token ∧ (ms.filterMap Msg.token).Nodup := by
        have h1 : (Msg.nft c t to :: ms).filterMap Msg.token = (c, t) :: ms.filterMap Msg.token := rfl
        rw [h1, List.nodup_cons] at hc; exact hc
      have hno : ∀ to', Msg.nft c t to' ∉ ms := fun to' h => hc'.1 (mem_tokens.mpr ⟨to', h⟩)
      obtain ⟨hh, o, ho, ha⟩ := hm
      have h1 := Sys.Did.nft (S := S) w c t to (ms ++ rest) o hh ho ha
      have hcnt := hc'.2
      obtain ⟨w', hs, e1, e2, e3, e4, b1, b2, o1, o2⟩ := Sys.drainB ms rest { w with owner := setOwner w.owner c t to } hnb'
        (fun x hx => by
          have := hf x (List.mem_cons_of_mem _ hx)
          cases x with
          | nft c' t' to' =>
            obtain ⟨x1, o', x2, x3⟩ := this
            refine ⟨x1, o', ?_, x3⟩
            have : ¬ (c' = c ∧ t' = t) := by
              rintro ⟨rfl, rfl⟩; exact hno to' hx
            show setOwner w.owner c t to c' t' = some o'
            simp only [setOwner, if_neg this]; exact x2
          | _ => exact this)
        hcnt
        (fun d => by have := hb d; rw [outflow_cons, Msg.out_nft] at this; exact Nat.le_trans (by omega) this)
      refine ⟨w', (Sys.StepsB.single h1 trivial).trans hs, e1, e2, e3, e4, ?_, ?_, ?_, ?_⟩
      · intro x d hx; rw [b1 x d hx]; rfl
      · intro d; have h1 : w.bank S.self d ≤ w'.bank S.self d + outflow d ms := b2 d
        rw [outflow_cons, Msg.out_nft]; omega
      · intro c' t' to' h
        rcases List.mem_cons.mp h with h | h
        · cases h
          rw [o2 _ _ hno]
          simp [setOwner]
        · exact o1 c' t' to' h
      · intro c' t' h
        rw [o2 _ _ (fun to' h' => h to' (List.mem_cons_of_mem _ h'))]
        have : ¬ (c' = c ∧ t' = t) := by
          rintro ⟨rfl, rfl⟩; exact h to (by simp)
        simp [setOwner, this]
    | initRoyalty r c =>
      have h1 := Sys.Did.initRoyalty (S := S) w r c (ms ++ rest)
      have hcnt : (ms.filterMap Msg.token).Nodup := by simpa [Msg.token, List.filterMap_cons] using hc
      obtain ⟨w', hs, e1, e2, e3, e4, b1, b2, o1, o2⟩ := Sys.drainB ms rest w hnb'
        (fun x hx => hf x (List.mem_cons_of_mem _ hx))
        hcnt
        (fun d => by have := hb d; rw [outflow_cons, Msg.out_initRoyalty] at this; omega)
      refine ⟨w', (Sys.StepsB.single h1 trivial).trans hs, e1, e2, e3, e4, ?_, ?_, ?_, ?_⟩
      · intro x d hx; rw [b1 x d hx]; rfl
      · intro d; rw [outflow_cons, Msg.out_initRoyalty]; have := b2 d; omega
      · intro c t to' h
        exact o1 c t to' (by simpa using h)
      · intro c t h
        exact o2 c t (fun to' h' => h to' (List.mem_cons_of_mem _ h'))
    | fairBurn cs =>
      have hcnt : (ms.filterMap Msg.token).Nodup := by simpa [Msg.token, List.filterMap_cons] using hc
      have hbal : ∀ d, amountOf d cs ≤ w.bank S.self d := by
        intro d; have := hb d; rw [outflow_cons, Msg.out_fairBurn] at this; omega
      have h1 := Sys.Did.fairBurn (S := S) w cs (ms ++ rest) hbal
      have hself : ∀ d, takeFunds w.bank S.self cs S.self d = w.bank S.self d - amountOf d cs := by simp [takeFunds]
      obtain ⟨w', hs, e1, e2, e3, e4, b1, b2, o1, o2⟩ := Sys.drainB ms rest { w with bank := takeFunds w.bank S.self cs } hnb'
        (fun x hx => hf x (List.mem_cons_of_mem _ hx))
        hcnt
        (fun d => by
          have h1 := hb d
          have h2 := hself d
          rw [outflow_cons, Msg.out_fairBurn] at h1
          show outflow d ms ≤ takeFunds w.bank S.self cs S.self d
          omega)
      refine ⟨w', (Sys.StepsB.single h1 trivial).trans hs, e1, e2, e3, e4, ?_, ?_, ?_, ?_⟩
      · intro x d hx
        rw [b1 x d hx]
        show takeFunds w.bank S.self cs x d + _ = _
        simp [takeFunds, hx, gets]
      · intro d
        have h1 : takeFunds w.bank S.self cs S.self d ≤ w'.bank S.self d + outflow d ms := b2 d
        have h2 := hself d
        rw [outflow_cons, Msg.out_fairBurn]; omega
      · intro c t to' h
        exact o1 c t to' (by simpa using h)
      · intro c t h
        exact o2 c t (fun to' h' => h to' (List.mem_cons_of_mem _ h'))
    | hook a i =>
      have h1 := Sys.Did.ret (S := S) w (.hook a i) (ms ++ rest) trivial
      have hcnt : (ms.filterMap Msg.token).Nodup := by simpa [Msg.token, List.filterMap_cons] using hc
      obtain ⟨w', hs, e1, e2, e3, e4, b1, b2, o1, o2⟩ := Sys.drainB ms rest w hnb'
        (fun x hx => hf x (List.mem_cons_of_mem _ hx))
        hcnt
        (fun d => by have := hb d; rw [outflow_cons, Msg.out_hook] at this; omega)
      refine ⟨w', (Sys.StepsB.single h1 trivial).trans hs, e1, e2, e3, e4, ?_, ?_, ?_, ?_⟩
      · intro x d hx; rw [b1 x d hx]; rfl
      · intro d; rw [outflow_cons, Msg.out_hook]; have := b2 d; omega
      · intro c t to' h
        exact o1 c t to' (by simpa using h)
      · intro c t h
        exact o2 c t (fun to' h' => h to' (List.mem_cons_of_mem _ h'))

end
end Verif

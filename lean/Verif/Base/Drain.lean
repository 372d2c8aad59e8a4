/- Executing a list of messages of the contract to the end. Helper file, no properties. -/
import Verif.Base.Chain

namespace Verif

section
variable {σ κ υ : Type} {S : Sys σ κ υ}

/-- Coins of denom `d` that the messages bring to account `x`. -/
def gets (x : Addr) (d : Denom) : List Msg → Nat
  | [] => 0
  | .send to cs :: ms => (if to = x then amountOf d cs else 0) + gets x d ms
  | _ :: ms => gets x d ms

theorem gets_append (x : Addr) (d : Denom) (ms ns : List Msg) : gets x d (ms ++ ns) = gets x d ms + gets x d ns := by
  induction ms with
  | nil => simp [gets]
  | cons m t ih => cases m <;> simp only [List.cons_append, gets, ih] <;> omega

/-- A message that conforming collections, the bank and the registry accept. -/
def Sys.Fine (S : Sys σ κ υ) (owner : Addr → Bytes → Option Addr) (approved : Addr → Bytes → Bool) : Msg → Prop
  | .send _ cs => cs ≠ [] ∧ ∀ c ∈ cs, 0 < c.amount
  | .initRoyalty _ _ => True
  | .nft c t _ => S.honest c ∧ ∃ o, owner c t = some o ∧ (o = S.self ∨ approved c t = true)
  | .fairBurn _ => True
  | .hook _ _ => True

/-- The token a message moves. -/
def Msg.token : Msg → Option (Addr × Bytes)
  | .nft c t _ => some (c, t)
  | _ => none

theorem mem_tokens {c : Addr} {t : Bytes} {ms : List Msg} : (c, t) ∈ ms.filterMap Msg.token ↔ ∃ to, Msg.nft c t to ∈ ms := by
  rw [List.mem_filterMap]
  constructor
  · rintro ⟨m, hm, h⟩
    cases m with
    | nft c' t' to => cases h; exact ⟨to, hm⟩
    | _ => cases h
  · rintro ⟨to, h⟩
    exact ⟨_, h, rfl⟩

theorem tokens_nodup_of_count {ms : List Msg}
    (h : ms.countP (fun m => match m with | .nft _ _ _ => true | _ => false) ≤ 1) : (ms.filterMap Msg.token).Nodup := by
  have hl : (ms.filterMap Msg.token).length ≤ 1 := by
    refine Nat.le_trans (Nat.le_of_eq ?_) h
    clear h
    induction ms with
    | nil => rfl
    | cons m t ih => cases m <;> simp [Msg.token, List.filterMap_cons, ih]
  match hm : ms.filterMap Msg.token, hl with
  | [], _ => exact List.nodup_nil
  | [x], _ => simp
  | x :: y :: r, hl => simp at hl

/-- Fine messages that move no token twice are all executed, if the balance suffices. -/
theorem Sys.drain : ∀ (ms rest : List Msg) (w : World σ), (∀ m ∈ ms, S.Fine w.owner w.approved m) →
    (ms.filterMap Msg.token).Nodup →
    (∀ d, outflow d ms ≤ w.bank S.self d) →
    ∃ w', S.Steps (w, ms ++ rest) (w', rest) ∧ w'.st = w.st ∧ w'.approved = w.approved ∧ w'.time = w.time ∧ w'.height = w.height ∧
      (∀ x d, x ≠ S.self → w'.bank x d = w.bank x d + gets x d ms) ∧
      (∀ d, w.bank S.self d ≤ w'.bank S.self d + outflow d ms) ∧
      (∀ c t to, Msg.nft c t to ∈ ms → w'.owner c t = some to) ∧
      (∀ c t, (∀ to, Msg.nft c t to ∉ ms) → w'.owner c t = w.owner c t)
  | [], rest, w, _, _, _ => ⟨w, .refl _, rfl, rfl, rfl, rfl, by simp [gets], by simp, by simp, by simp⟩
  | m :: ms, rest, w, hf, hc, hb => by
    have hm := hf m (by simp)
    cases m with
    | send to cs =>
      have hcnt : (ms.filterMap Msg.token).Nodup := by simpa [Msg.token, List.filterMap_cons] using hc
      have hbal : ∀ d, amountOf d cs ≤ w.bank S.self d := by
        intro d; have := hb d; rw [outflow_cons, Msg.out_send] at this; omega
      have h1 := Sys.Step.send (S := S) w to cs (ms ++ rest) hm.1 hm.2 hbal
      obtain ⟨w', hs, e1, e2, e3, e4, b1, b2, o1, o2⟩ := Sys.drain ms rest { w with bank := moveFunds w.bank S.self to cs }
        (fun x hx => hf x (List.mem_cons_of_mem _ hx))
        hcnt
        (fun d => by
          have h1 := hb d
          have h2 := moveFunds_from_ge (bank := w.bank) (a := S.self) (b := to) (cs := cs) d
          rw [outflow_cons, Msg.out_send] at h1
          show outflow d ms ≤ moveFunds w.bank S.self to cs S.self d
          omega)
      refine ⟨w', (Sys.Steps.single h1).trans hs, e1, e2, e3, e4, ?_, ?_, ?_, ?_⟩
      · intro x d hx
        rw [b1 x d hx]
        simp only [gets]
        by_cases e : to = x
        · subst e
          show moveFunds w.bank S.self to cs to d + _ = _
          rw [moveFunds_to (Ne.symm hx), if_pos rfl]; omega
        · show moveFunds w.bank S.self to cs x d + _ = _
          rw [moveFunds_other hx (Ne.symm e), if_neg e]; omega
      · intro d
        have h1 := b2 d
        have h2 := moveFunds_from_ge (bank := w.bank) (a := S.self) (b := to) (cs := cs) d
        have h3 : moveFunds w.bank S.self to cs S.self d ≤ w'.bank S.self d + outflow d ms := h1
        rw [outflow_cons, Msg.out_send]; omega
      · intro c t to' h
        exact o1 c t to' (by simpa using h)
      · intro c t h
        exact o2 c t (fun to' h' => h to' (List.mem_cons_of_mem _ h'))
    | nft c t to =>
      have hc' : (c, t) ∉ ms.filterMap Msg.token ∧ (ms.filterMap Msg.token).Nodup := by
        have h1 : (Msg.nft c t to :: ms).filterMap Msg.token = (c, t) :: ms.filterMap Msg.token := rfl
        rw [h1, List.nodup_cons] at hc; exact hc
      have hno : ∀ to', Msg.nft c t to' ∉ ms := fun to' h => hc'.1 (mem_tokens.mpr ⟨to', h⟩)
      obtain ⟨hh, o, ho, ha⟩ := hm
      have h1 := Sys.Step.nft (S := S) w c t to (ms ++ rest) o hh ho ha
      have hcnt := hc'.2
      obtain ⟨w', hs, e1, e2, e3, e4, b1, b2, o1, o2⟩ := Sys.drain ms rest { w with owner := setOwner w.owner c t to }
        (fun x hx => by
          have := hf x (List.mem_cons_of_mem _ hx)
          cases x with
          | nft c' t' to' =>
            obtain ⟨x1, o', x2, x3⟩ := this
            refine ⟨x1, o', ?_, x3⟩
            have : ¬ (c' = c ∧ t' = t) := by
              rintro ⟨rfl, rfl⟩; exact hno to' hx
            show setOwner w.owner c t to c' t' = some o'
            simp only [setOwner, if_neg this]; exact x2
          | _ => exact this)
        hcnt
        (fun d => by have := hb d; rw [outflow_cons, Msg.out_nft] at this; exact Nat.le_trans (by omega) this)
      refine ⟨w', (Sys.Steps.single h1).trans hs, e1, e2, e3, e4, ?_, ?_, ?_, ?_⟩
      · intro x d hx; rw [b1 x d hx]; rfl
      · intro d; have h1 : w.bank S.self d ≤ w'.bank S.self d + outflow d ms := b2 d
        rw [outflow_cons, Msg.out_nft]; omega
      · intro c' t' to' h
        rcases List.mem_cons.mp h with h | h
        · cases h
          rw [o2 _ _ hno]
          simp [setOwner]
        · exact o1 c' t' to' h
      · intro c' t' h
        rw [o2 _ _ (fun to' h' => h to' (List.mem_cons_of_mem _ h'))]
        have : ¬ (c' = c ∧ t' = t) := by
          rintro ⟨rfl, rfl⟩; exact h to (by simp)
        simp [setOwner, this]
    | initRoyalty r c =>
      have h1 := Sys.Step.initRoyalty (S := S) w r c (ms ++ rest)
      have hcnt : (ms.filterMap Msg.token).Nodup := by simpa [Msg.token, List.filterMap_cons] using hc
      obtain ⟨w', hs, e1, e2, e3, e4, b1, b2, o1, o2⟩ := Sys.drain ms rest w
        (fun x hx => hf x (List.mem_cons_of_mem _ hx))
        hcnt
        (fun d => by have := hb d; rw [outflow_cons, Msg.out_initRoyalty] at this; omega)
      refine ⟨w', (Sys.Steps.single h1).trans hs, e1, e2, e3, e4, ?_, ?_, ?_, ?_⟩
      · intro x d hx; rw [b1 x d hx]; rfl
      · intro d; rw [outflow_cons, Msg.out_initRoyalty]; have := b2 d; omega
      · intro c t to' h
        exact o1 c t to' (by simpa using h)
      · intro c t h
        exact o2 c t (fun to' h' => h to' (List.mem_cons_of_mem _ h'))
    | fairBurn cs =>
      have hcnt : (ms.filterMap Msg.token).Nodup := by simpa [Msg.token, List.filterMap_cons] using hc
      have hbal : ∀ d, amountOf d cs ≤ w.bank S.self d := by
        intro d; have := hb d; rw [outflow_cons, Msg.out_fairBurn] at this; omega
      have h1 := Sys.Step.fairBurn (S := S) w cs (ms ++ rest) hbal
      have hself : ∀ d, takeFunds w.bank S.self cs S.self d = w.bank S.self d - amountOf d cs := by simp [takeFunds]
      obtain ⟨w', hs, e1, e2, e3, e4, b1, b2, o1, o2⟩ := Sys.drain ms rest { w with bank := takeFunds w.bank S.self cs }
        (fun x hx => hf x (List.mem_cons_of_mem _ hx))
        hcnt
        (fun d => by
          have h1 := hb d
          have h2 := hself d
          rw [outflow_cons, Msg.out_fairBurn] at h1
          show outflow d ms ≤ takeFunds w.bank S.self cs S.self d
          omega)
      refine ⟨w', (Sys.Steps.single h1).trans hs, e1, e2, e3, e4, ?_, ?_, ?_, ?_⟩
      · intro x d hx
        rw [b1 x d hx]
        show takeFunds w.bank S.self cs x d + _ = _
        simp [takeFunds, hx, gets]
      · intro d
        have h1 : takeFunds w.bank S.self cs S.self d ≤ w'.bank S.self d + outflow d ms := b2 d
        have h2 := hself d
        rw [outflow_cons, Msg.out_fairBurn]; omega
      · intro c t to' h
        exact o1 c t to' (by simpa using h)
      · intro c t h
        exact o2 c t (fun to' h' => h to' (List.mem_cons_of_mem _ h'))
    | hook a i =>
      have h1 := Sys.Step.ret (S := S) w (.hook a i) (ms ++ rest) trivial
      have hcnt : (ms.filterMap Msg.token).Nodup := by simpa [Msg.token, List.filterMap_cons] using hc
      obtain ⟨w', hs, e1, e2, e3, e4, b1, b2, o1, o2⟩ := Sys.drain ms rest w
        (fun x hx => hf x (List.mem_cons_of_mem _ hx))
        hcnt
        (fun d => by have := hb d; rw [outflow_cons, Msg.out_hook] at this; omega)
      refine ⟨w', (Sys.Steps.single h1).trans hs, e1, e2, e3, e4, ?_, ?_, ?_, ?_⟩
      · intro x d hx; rw [b1 x d hx]; rfl
      · intro d; rw [outflow_cons, Msg.out_hook]; have := b2 d; omega
      · intro c t to' h
        exact o1 c t to' (by simpa using h)
      · intro c t h
        exact o2 c t (fun to' h' => h to' (List.mem_cons_of_mem _ h'))

end
end Verif

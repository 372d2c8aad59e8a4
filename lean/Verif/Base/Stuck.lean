/-
A transaction with a pending NFT transfer or bank send that is bound to fail never completes. Helper file.
-/
import Verif.Base.Chain

namespace Verif
section
variable {σ κ υ : Type} {S : Sys σ κ υ}

/-- Messages that run no foreign code and move no NFT. -/
def Msg.plain : Msg → Prop
  | .send _ _ | .fairBurn _ | .initRoyalty _ _ => True
  | _ => False

/-- The token does not exist on a conforming collection; its transfer is pending with only plain messages before it. -/
def Sys.Doomed (S : Sys σ κ υ) (c : Addr) (t : Bytes) (x : World σ × List Msg) : Prop :=
  S.honest c ∧ x.1.owner c t = none ∧ ∃ pre to rest, x.2 = pre ++ .nft c t to :: rest ∧ ∀ m ∈ pre, m.plain

theorem Sys.doomed_step {c : Addr} {t : Bytes} {a b : World σ × List Msg} (h : S.Doomed c t a) (hs : S.Step a b) :
    S.Doomed c t b := by
  obtain ⟨hh, ho, pre, to, rest, hst, hpl⟩ := h
  have nf : ¬ S.foreign (.nft c t to) := fun hf => hf.1 hh
  have npl : ∀ m, m.plain → ¬ S.foreign m := by
    intro m h; cases m <;> first | exact fun hf => hf | exact absurd h (fun h => h)
  have nctl : ¬ S.control a.2 := by
    rw [hst]
    cases pre with
    | nil => exact nf
    | cons m pre => exact npl m (hpl m List.mem_cons_self)
  have tail : ∀ m r, a.2 = m :: r → m ≠ .nft c t to → m.plain → ∃ pre' : List Msg, r = pre' ++ .nft c t to :: rest ∧ ∀ m ∈ pre', m.plain := by
    intro m r hr hm _
    cases pre with
    | nil => rw [hst] at hr; cases hr; exact absurd rfl hm
    | cons m' pre' =>
      rw [hst] at hr; cases hr
      exact ⟨pre', rfl, fun m hm => hpl m (List.mem_cons_of_mem _ hm)⟩
  cases hs with
  | call w stack sender funds m q s' msgs hctl => exact absurd hctl nctl
  | sudo w m q s' msgs hq hex => exact absurd (by trivial) nctl
  | env w w' stack hctl h => exact absurd hctl nctl
  | block w t h ht hh => exact absurd (by trivial) nctl
  | send w to' cs r hne hpos hbal =>
    obtain ⟨pre', e, hp⟩ := tail _ _ rfl (by simp) trivial
    exact ⟨hh, ho, pre', to, rest, e, hp⟩
  | fairBurn w cs r hbal =>
    obtain ⟨pre', e, hp⟩ := tail _ _ rfl (by simp) trivial
    exact ⟨hh, ho, pre', to, rest, e, hp⟩
  | nft w c' t' to' r o hh' ho' hauth =>
    exfalso
    cases pre with
    | nil =>
      simp only [List.nil_append, List.cons.injEq, Msg.nft.injEq] at hst
      obtain ⟨⟨rfl, rfl, rfl⟩, rfl⟩ := hst
      rw [ho] at ho'; cases ho'
    | cons m' pre' =>
      simp only [List.cons_append, List.cons.injEq] at hst
      have := hpl m' List.mem_cons_self
      rw [← hst.1] at this
      exact this
  | initRoyalty w r' c' r =>
    obtain ⟨pre', e, hp⟩ := tail _ _ rfl (by simp) trivial
    exact ⟨hh, ho, pre', to, rest, e, hp⟩
  | ret w m r hf => exact absurd hf nctl

/-- It stays pending for ever. -/
theorem Sys.Doomed.stuck {c : Addr} {t : Bytes} {a b : World σ × List Msg} (h : S.Doomed c t a) (hs : S.Steps a b) :
    ∃ to, Msg.nft c t to ∈ b.2 := by
  have := Sys.Steps.inv (P := S.Doomed c t) (fun _ _ => Sys.doomed_step) hs h
  obtain ⟨_, _, pre, to, rest, e, _⟩ := this
  exact ⟨to, by rw [e]; simp⟩

/-- A bank send of a zero amount is pending with only plain messages before it. -/
def Sys.Broke (x : World σ × List Msg) : Prop :=
  ∃ pre to cs rest, x.2 = pre ++ .send to cs :: rest ∧ (∃ c ∈ cs, c.amount = 0) ∧ ∀ m ∈ pre, m.plain

theorem Sys.broke_step {a b : World σ × List Msg} (h : Sys.Broke a) (hs : S.Step a b) : Sys.Broke b := by
  obtain ⟨pre, to, cs, rest, hst, hz, hpl⟩ := h
  have npl : ∀ m : Msg, m.plain → ¬ S.foreign m := by
    intro m h; cases m <;> first | exact fun hf => hf | exact absurd h (fun h => h)
  have nctl : ¬ S.control a.2 := by
    rw [hst]
    cases pre with
    | nil => exact npl (.send to cs) trivial
    | cons m pre => exact npl m (hpl m List.mem_cons_self)
  have tail : ∀ m r, a.2 = m :: r → m ≠ .send to cs → ∃ pre' : List Msg, r = pre' ++ .send to cs :: rest ∧ ∀ m ∈ pre', m.plain := by
    intro m r hr hm
    cases pre with
    | nil => rw [hst] at hr; cases hr; exact absurd rfl hm
    | cons m' pre' =>
      rw [hst] at hr; cases hr
      exact ⟨pre', rfl, fun m hm => hpl m (List.mem_cons_of_mem _ hm)⟩
  cases hs with
  | call w stack sender funds m q s' msgs hctl => exact absurd hctl nctl
  | sudo w m q s' msgs hq hex => exact absurd (by trivial) nctl
  | env w w' stack hctl h => exact absurd hctl nctl
  | block w t h ht hh => exact absurd (by trivial) nctl
  | send w to' cs' r hne hpos hbal =>
    obtain ⟨pre', e, hp⟩ := tail _ _ rfl (by
      rintro ⟨⟩
      obtain ⟨c, hc, h0⟩ := hz
      have := hpos c hc
      omega)
    exact ⟨pre', to, cs, rest, e, hz, hp⟩
  | fairBurn w cs' r hbal =>
    obtain ⟨pre', e, hp⟩ := tail _ _ rfl (by simp)
    exact ⟨pre', to, cs, rest, e, hz, hp⟩
  | nft w c' t' to' r o hh' ho' hauth =>
    obtain ⟨pre', e, hp⟩ := tail _ _ rfl (by simp)
    exact ⟨pre', to, cs, rest, e, hz, hp⟩
  | initRoyalty w r' c' r =>
    obtain ⟨pre', e, hp⟩ := tail _ _ rfl (by simp)
    exact ⟨pre', to, cs, rest, e, hz, hp⟩
  | ret w m r hf => exact absurd hf nctl

/-- It stays pending for ever. -/
theorem Sys.Broke.stuck {a b : World σ × List Msg} (h : Sys.Broke a) (hs : S.Steps a b) : b.2 ≠ [] := by
  have := Sys.Steps.inv (P := Sys.Broke) (fun _ _ => Sys.broke_step) hs h
  obtain ⟨pre, to, cs, rest, e, _⟩ := this
  rw [e]; simp

end
end Verif

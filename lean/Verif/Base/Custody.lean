/-
Custody of NFTs in the chain machine: a weakest-precondition style invariant over the stack of pending
messages. Helper file, shared by the contracts that escrow NFTs.
-/
import Verif.Base.Chain

namespace Verif
section
variable {σ κ υ : Type} (S : Sys σ κ υ) (held : σ → Addr → Bytes → Prop)

/-- Every token of a conforming collection the contract claims to hold is owned by it. -/
def Sys.Esc (st : σ) (owner : Addr → Bytes → Option Addr) : Prop :=
  ∀ c t, S.honest c → held st c t → owner c t = some S.self

/-- Pending transfers below a foreign frame: tokens on their way out, still owned, no longer claimed. -/
inductive Sys.Pend (st : σ) (owner : Addr → Bytes → Option Addr) : List Msg → Prop where
  | nil : Pend st owner []
  | skip {m : Msg} {rest : List Msg} (h : ∀ c t to, m = .nft c t to → ¬ S.honest c) (hr : Pend st owner rest) :
      Pend st owner (m :: rest)
  | out {c : Addr} {t : Bytes} {to : Addr} {rest : List Msg} (ho : owner c t = some S.self)
      (hh : ¬ held st c t) (hd : ∀ to', .nft c t to' ∉ rest) (hr : Pend st owner rest) :
      Pend st owner (.nft c t to :: rest)

/-- What must hold with the given messages pending so that custody is restored when they are done. -/
def Sys.J (st : σ) : (Addr → Bytes → Option Addr) → List Msg → Prop
  | owner, [] => S.Esc held st owner
  | owner, .nft c t to :: rest =>
    (S.honest c → Sys.J st (setOwner owner c t to) rest) ∧
    (¬ S.honest c → S.Esc held st owner ∧ S.Pend held st owner rest)
  | owner, .hook _ _ :: rest => S.Esc held st owner ∧ S.Pend held st owner rest
  | owner, .send _ _ :: rest => Sys.J st owner rest
  | owner, .fairBurn _ :: rest => Sys.J st owner rest
  | owner, .initRoyalty _ _ :: rest => Sys.J st owner rest

variable {S held}

theorem Sys.Pend.mem {st : σ} {owner : Addr → Bytes → Option Addr} {ms : List Msg} (h : S.Pend held st owner ms)
    {c : Addr} {t : Bytes} {to : Addr} (hc : S.honest c) (hm : .nft c t to ∈ ms) :
    owner c t = some S.self ∧ ¬ held st c t := by
  induction h with
  | nil => cases hm
  | skip hs _ ih =>
    cases List.mem_cons.mp hm with
    | inl e => exact absurd hc (hs _ _ _ e.symm)
    | inr e => exact ih e
  | out ho hh _ _ ih =>
    cases List.mem_cons.mp hm with
    | inl e => cases e; exact ⟨ho, hh⟩
    | inr e => exact ih e

theorem Sys.Esc.setOwner {st : σ} {owner : Addr → Bytes → Option Addr} (h : S.Esc held st owner)
    {c : Addr} {t : Bytes} {to : Addr} (hn : ¬ held st c t) : S.Esc held st (setOwner owner c t to) := by
  intro c' t' hc' hh'
  unfold Verif.setOwner
  split
  case isTrue e => obtain ⟨rfl, rfl⟩ := e; exact absurd hh' hn
  case isFalse => exact h c' t' hc' hh'

theorem Sys.Pend.setOwner {st : σ} {owner : Addr → Bytes → Option Addr} {ms : List Msg}
    (h : S.Pend held st owner ms) {c : Addr} {t : Bytes} {to : Addr}
    (hn : ∀ to', .nft c t to' ∉ ms) : S.Pend held st (Verif.setOwner owner c t to) ms := by
  induction h with
  | nil => exact .nil
  | skip hs _ ih => exact .skip hs (ih (fun to' hm => hn to' (List.mem_cons_of_mem _ hm)))
  | @out c' t' to' rest ho hh hd _ ih =>
    refine .out ?_ hh hd (ih (fun to' hm => hn to' (List.mem_cons_of_mem _ hm)))
    unfold Verif.setOwner
    split
    case isTrue e => obtain ⟨rfl, rfl⟩ := e; exact absurd List.mem_cons_self (hn to')
    case isFalse => exact ho

/-- After a foreign frame returns. -/
theorem Sys.J_of_pend {st : σ} : ∀ {ms : List Msg} {owner : Addr → Bytes → Option Addr},
    S.Esc held st owner → S.Pend held st owner ms → S.J held st owner ms
  | [], owner, he, _ => he
  | .nft c t to :: rest, owner, he, hp => by
    constructor
    · intro hc
      cases hp with
      | skip hs _ => exact absurd hc (hs _ _ _ rfl)
      | out ho hh hd hr => exact Sys.J_of_pend (he.setOwner hh) (hr.setOwner hd)
    · intro hc
      refine ⟨he, ?_⟩
      cases hp with
      | skip _ hr => exact hr
      | out _ _ _ hr => exact hr
  | .hook _ _ :: rest, owner, he, hp => by
    cases hp with
    | skip _ hr => exact ⟨he, hr⟩
  | .send _ _ :: rest, owner, he, hp => by
    cases hp with
    | skip _ hr => exact Sys.J_of_pend (ms := rest) he hr
  | .fairBurn _ :: rest, owner, he, hp => by
    cases hp with
    | skip _ hr => exact Sys.J_of_pend (ms := rest) he hr
  | .initRoyalty _ _ :: rest, owner, he, hp => by
    cases hp with
    | skip _ hr => exact Sys.J_of_pend (ms := rest) he hr

theorem Sys.Pend.append {st : σ} {owner : Addr → Bytes → Option Addr} {ms rest : List Msg}
    (h1 : S.Pend held st owner ms) (h2 : S.Pend held st owner rest)
    (hd : ∀ c t to to', S.honest c → .nft c t to ∈ ms → .nft c t to' ∉ rest) :
    S.Pend held st owner (ms ++ rest) := by
  induction h1 with
  | nil => exact h2
  | skip hs _ ih =>
    exact .skip hs (ih (fun c t to to' hc hm => hd c t to to' hc (List.mem_cons_of_mem _ hm)))
  | @out c t to ms' ho hh hdd _ ih =>
    have ih' := ih (fun c t to to' hc hm => hd c t to to' hc (List.mem_cons_of_mem _ hm))
    by_cases hc : S.honest c
    · refine .out ho hh ?_ ih'
      intro to' hm
      cases List.mem_append.mp hm with
      | inl h => exact hdd to' h
      | inr h => exact hd c t to to' hc List.mem_cons_self h
    · exact .skip (fun c' t' to' e => by cases e; exact hc) ih'

/-- The stack when somebody is in control. -/
def Sys.Ctl (S : Sys σ κ υ) (held : σ → Addr → Bytes → Prop) (st : σ) (owner : Addr → Bytes → Option Addr)
    (stack : List Msg) : Prop :=
  stack = [] ∨ ∃ m rest, stack = m :: rest ∧ S.foreign m ∧ S.Pend held st owner rest

theorem Sys.J_ctl {st : σ} {owner : Addr → Bytes → Option Addr} {stack : List Msg}
    (h : S.J held st owner stack) (hc : S.control stack) :
    S.Esc held st owner ∧ S.Ctl held st owner stack := by
  cases stack with
  | nil => exact ⟨h, Or.inl rfl⟩
  | cons m rest =>
    have hf : S.foreign m := hc
    cases m with
    | nft c t to => exact ⟨(h.2 hf.1).1, Or.inr ⟨_, _, rfl, hf, (h.2 hf.1).2⟩⟩
    | hook a i => exact ⟨h.1, Or.inr ⟨_, _, rfl, hf, h.2⟩⟩
    | send => exact absurd hf id
    | fairBurn => exact absurd hf id
    | initRoyalty => exact absurd hf id

theorem Sys.J_foreign {st : σ} {owner : Addr → Bytes → Option Addr} {m : Msg} {rest : List Msg}
    (hf : S.foreign m) (he : S.Esc held st owner) (hp : S.Pend held st owner rest) :
    S.J held st owner (m :: rest) := by
  cases m with
  | nft c t to => exact ⟨fun h => absurd h hf.1, fun _ => ⟨he, hp⟩⟩
  | hook a i => exact ⟨he, hp⟩
  | send => exact absurd hf id
  | fairBurn => exact absurd hf id
  | initRoyalty => exact absurd hf id

theorem Sys.foreign_skip {m : Msg} (hf : S.foreign m) : ∀ c t to, m = .nft c t to → ¬ S.honest c := by
  rintro c t to rfl; exact hf.1

/-- Messages of a call on top of the old stack. -/
theorem Sys.J_append {st : σ} {stack : List Msg} : ∀ {ms : List Msg} {owner : Addr → Bytes → Option Addr},
    S.J held st owner ms → S.Ctl held st owner stack →
    (∀ c t to to', S.honest c → .nft c t to ∈ ms → .nft c t to' ∉ stack) →
    S.J held st owner (ms ++ stack)
  | [], owner, hj, hctl, _ => by
    rcases hctl with rfl | ⟨m, rest, rfl, hf, hp⟩
    · exact hj
    · exact Sys.J_foreign hf hj hp
  | .nft c t to :: ms, owner, hj, hctl, hd => by
    constructor
    · intro hc
      refine Sys.J_append (hj.1 hc) ?_ (fun c t to to' hc hm => hd c t to to' hc (List.mem_cons_of_mem _ hm))
      rcases hctl with rfl | ⟨m, rest, rfl, hf, hp⟩
      · exact Or.inl rfl
      · refine Or.inr ⟨m, rest, rfl, hf, hp.setOwner ?_⟩
        intro to' hm
        exact hd c t to to' hc List.mem_cons_self (List.mem_cons_of_mem _ hm)
    · intro hc
      obtain ⟨he, hp⟩ := hj.2 hc
      refine ⟨he, hp.append ?_ (fun c t to to' hc hm => hd c t to to' hc (List.mem_cons_of_mem _ hm))⟩
      rcases hctl with rfl | ⟨m, rest, rfl, hf, hp'⟩
      · exact .nil
      · exact .skip (Sys.foreign_skip hf) hp'
  | .hook a i :: ms, owner, hj, hctl, hd => by
    obtain ⟨he, hp⟩ := hj
    refine ⟨he, hp.append ?_ (fun c t to to' hc hm => hd c t to to' hc (List.mem_cons_of_mem _ hm))⟩
    rcases hctl with rfl | ⟨m, rest, rfl, hf, hp'⟩
    · exact .nil
    · exact .skip (Sys.foreign_skip hf) hp'
  | .send _ _ :: ms, owner, hj, hctl, hd =>
    Sys.J_append (ms := ms) hj hctl (fun c t to to' hc hm => hd c t to to' hc (List.mem_cons_of_mem _ hm))
  | .fairBurn _ :: ms, owner, hj, hctl, hd =>
    Sys.J_append (ms := ms) hj hctl (fun c t to to' hc hm => hd c t to to' hc (List.mem_cons_of_mem _ hm))
  | .initRoyalty _ _ :: ms, owner, hj, hctl, hd =>
    Sys.J_append (ms := ms) hj hctl (fun c t to to' hc hm => hd c t to to' hc (List.mem_cons_of_mem _ hm))

/-- Tokens the contract owns but does not claim are not touched by the call. -/
def Sys.Untouched (S : Sys σ κ υ) (held : σ → Addr → Bytes → Prop) (owner : Addr → Bytes → Option Addr)
    (s s' : σ) (msgs : List Msg) : Prop :=
  ∀ c t, S.honest c → owner c t = some S.self → ¬ held s c t → ¬ held s' c t ∧ ∀ to, .nft c t to ∉ msgs

theorem Sys.Pend.call {s s' : σ} {owner : Addr → Bytes → Option Addr} {ms msgs : List Msg}
    (hu : S.Untouched held owner s s' msgs) (h : S.Pend held s owner ms) : S.Pend held s' owner ms := by
  induction h with
  | nil => exact .nil
  | skip hs _ ih => exact .skip hs ih
  | @out c t to rest ho hh hd _ ih =>
    by_cases hc : S.honest c
    · exact .out ho (hu c t hc ho hh).1 hd ih
    · exact .skip (fun c' t' to' e => by cases e; exact hc) ih

/-- Custody is preserved by every machine step. `I` is an auxiliary state invariant. -/
theorem Sys.custody_step {I : σ → Prop}
    (hexec : ∀ ctx sender funds m s s' msgs owner, ctx.self = S.self → sender ≠ S.self → I s →
      (∀ c t, S.honest c → ctx.q.ownerOf c t = owner c t) → S.Esc held s owner →
      S.exec ctx sender funds m s = .ok (s', msgs) →
      S.J held s' owner msgs ∧ S.Untouched held owner s s' msgs)
    (hsudo : ∀ ctx m s s' msgs owner, ctx.self = S.self → I s → S.Esc held s owner →
      S.sudo ctx m s = .ok (s', msgs) → S.J held s' owner msgs)
    {a b : World σ × List Msg} (hI : I a.1.st) (hJ : S.J held a.1.st a.1.owner a.2) (h : S.Step a b) :
    S.J held b.1.st b.1.owner b.2 := by
  cases h with
  | call w stack sender funds m q s' msgs hctl hne hfunds hq hex =>
    obtain ⟨he, hc⟩ := Sys.J_ctl hJ hctl
    obtain ⟨h1, h2⟩ := hexec (S.ctx w q) _ _ _ _ _ _ w.owner rfl hne hI hq he hex
    refine Sys.J_append h1 ?_ ?_
    · rcases hc with rfl | ⟨m, rest, rfl, hf, hp⟩
      · exact Or.inl rfl
      · exact Or.inr ⟨m, rest, rfl, hf, Sys.Pend.call h2 hp⟩
    · intro c t to to' hcc hm hm'
      rcases hc with rfl | ⟨m, rest, rfl, hf, hp⟩
      · cases hm'
      · cases List.mem_cons.mp hm' with
        | inl e => exact absurd hcc (Sys.foreign_skip hf _ _ _ e.symm)
        | inr e =>
          obtain ⟨p1, p2⟩ := hp.mem hcc e
          exact (h2 c t hcc p1 p2).2 to hm
  | sudo w m q s' msgs hq hex => exact hsudo _ _ _ _ _ w.owner rfl hI hJ hex
  | env w w' stack hctl h =>
    obtain ⟨he, hc⟩ := Sys.J_ctl hJ hctl
    obtain ⟨hst, _, _, _, ho⟩ := h
    have he' : S.Esc held w'.st w'.owner := by
      intro c t hc hh
      simp only [hst] at hh
      exact ho c t hc (he c t hc hh)
    have hpend : ∀ ms, S.Pend held w.st w.owner ms → S.Pend held w'.st w'.owner ms := by
      intro ms hp
      induction hp with
      | nil => exact .nil
      | skip hs _ ih => exact .skip hs ih
      | @out c t to rest ho' hh hd _ ih =>
        by_cases hc : S.honest c
        · exact .out (ho c t hc ho') (by rw [hst]; exact hh) hd ih
        · exact .skip (fun c' t' to' e => by cases e; exact hc) ih
    rcases hc with rfl | ⟨m, rest, rfl, hf, hp⟩
    · exact he'
    · exact Sys.J_foreign hf he' (hpend _ hp)
  | block w t h ht hh => exact hJ
  | send w to cs rest hne hpos hbal => exact hJ
  | fairBurn w cs rest hbal => exact hJ
  | nft w c t to rest o hh ho hauth => exact hJ.1 hh
  | initRoyalty w r c rest => exact hJ
  | ret w m rest hf =>
    have hc : S.control (m :: rest) := hf
    obtain ⟨he, hc'⟩ := Sys.J_ctl hJ hc
    rcases hc' with h | ⟨m', rest', h, _, hp⟩
    · cases h
    · cases h; exact Sys.J_of_pend he hp

end
end Verif

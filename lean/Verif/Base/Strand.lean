/-
Tokens and coins that belong to the contract's account without any order of it being behind them. Helper file.
-/
import Verif.Base.Custody

namespace Verif
section
variable {σ κ υ : Type} {S : Sys σ κ υ} {held : σ → Addr → Bytes → Prop}

/-- The contract owns the token, has no claim to it on record, and is not about to send it away. -/
def Sys.Stray (S : Sys σ κ υ) (held : σ → Addr → Bytes → Prop) (c : Addr) (t : Bytes) (x : World σ × List Msg) : Prop :=
  x.1.owner c t = some S.self ∧ ¬ held x.1.st c t ∧ ∀ to, .nft c t to ∉ x.2

/-- No step moves such a token. -/
theorem Sys.stray_step {I : σ → Prop} {c : Addr} {t : Bytes} (hh : S.honest c)
    (hexec : ∀ ctx sender funds m s s' msgs owner, ctx.self = S.self → sender ≠ S.self → I s →
      (∀ c t, S.honest c → ctx.q.ownerOf c t = owner c t) → S.Esc held s owner →
      S.exec ctx sender funds m s = .ok (s', msgs) → S.Untouched held owner s s' msgs)
    (hsudo : ∀ ctx m s s' msgs owner, ctx.self = S.self → I s → S.Esc held s owner →
      S.sudo ctx m s = .ok (s', msgs) → S.Untouched held owner s s' msgs)
    {a b : World σ × List Msg} (hI : I a.1.st) (hE : S.control a.2 → S.Esc held a.1.st a.1.owner) (h : S.Step a b)
    (hs : S.Stray held c t a) : S.Stray held c t b := by
  obtain ⟨ho, hn, hp⟩ := hs
  cases h with
  | call w stack sender funds m q s' msgs hctl hne hfunds hq hex =>
    obtain ⟨h1, h2⟩ := hexec (S.ctx w q) _ _ _ _ _ _ w.owner rfl hne hI hq (hE hctl) hex c t hh ho hn
    refine ⟨ho, h1, fun to hm => ?_⟩
    rcases List.mem_append.mp hm with hm | hm
    · exact h2 to hm
    · exact hp to hm
  | sudo w m q s' msgs hq hex =>
    obtain ⟨h1, h2⟩ := hsudo (S.ctx w q) _ _ _ _ w.owner rfl hI (hE trivial) hex c t hh ho hn
    exact ⟨ho, h1, h2⟩
  | env w w' stack hctl h => exact ⟨h.2.2.2.2 c t hh ho, by rw [h.1]; exact hn, hp⟩
  | block w t h ht hh => exact ⟨ho, hn, hp⟩
  | send w to cs rest hne hpos hbal => exact ⟨ho, hn, fun to hm => hp to (List.mem_cons_of_mem _ hm)⟩
  | fairBurn w cs rest hbal => exact ⟨ho, hn, fun to hm => hp to (List.mem_cons_of_mem _ hm)⟩
  | nft w c' t' to rest o hh' ho' hauth =>
    refine ⟨?_, hn, fun to hm => hp to (List.mem_cons_of_mem _ hm)⟩
    have hne : ¬ (c = c' ∧ t = t') := by
      rintro ⟨rfl, rfl⟩; exact hp to List.mem_cons_self
    show (if c = c' ∧ t = t' then some to else w.owner c t) = _
    rw [if_neg hne]; exact ho
  | initRoyalty w r c rest => exact ⟨ho, hn, fun to hm => hp to (List.mem_cons_of_mem _ hm)⟩
  | ret w m rest hf => exact ⟨ho, hn, fun to hm => hp to (List.mem_cons_of_mem _ hm)⟩

/-- Coins beyond what is owed stay there: the balance covers what is owed, what is about to be paid, and `k` on top, ever
after. -/
theorem Sys.surplus_step {escrow : σ → Denom → Nat} {I : σ → Prop} {k : Denom → Nat}
    (hexec : ∀ ctx sender funds m s s' msgs, ctx.self = S.self → sender ≠ S.self → I s →
      S.exec ctx sender funds m s = .ok (s', msgs) →
      ∀ d, outflow d msgs + escrow s' d ≤ amountOf d funds + escrow s d)
    (hsudo : ∀ ctx m s s' msgs, ctx.self = S.self → I s → S.sudo ctx m s = .ok (s', msgs) →
      ∀ d, outflow d msgs + escrow s' d ≤ escrow s d)
    {a b : World σ × List Msg} (hI : I a.1.st) (hs : S.Solvent (fun s d => escrow s d + k d) a) (h : S.Step a b) :
    S.Solvent (fun s d => escrow s d + k d) b := by
  refine Sys.solvent_step (I := I) ?_ ?_ hI hs h
  · intro ctx sender funds m s s' msgs h1 h2 h3 h4 d
    have := hexec ctx sender funds m s s' msgs h1 h2 h3 h4 d
    show outflow d msgs + (escrow s' d + k d) ≤ amountOf d funds + (escrow s d + k d)
    omega
  · intro ctx m s s' msgs h1 h2 h3 d
    have := hsudo ctx m s s' msgs h1 h2 h3 d
    show outflow d msgs + (escrow s' d + k d) ≤ escrow s d + k d
    omega

end
end Verif

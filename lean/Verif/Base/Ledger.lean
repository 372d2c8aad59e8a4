/-
The chain machine with a ledger: every step of `Base/Chain.lean` together with what an observer of the chain sees of it.
-/
import Verif.Base.Chain

namespace Verif

/-- What is seen of one step. -/
inductive Entry (κ υ : Type) where
  /-- a call, with the messages of its response -/
  | call (sender : Addr) (funds : List Coin) (m : κ) (msgs : List Msg)
  /-- a call by the chain -/
  | sudo (m : υ) (msgs : List Msg)
  /-- coins somebody else sends to the contract without calling it -/
  | gift (given : Denom → Nat)
  /-- the contract pays -/
  | paid (to : Addr) (cs : List Coin)
  /-- anything else: blocks, fair burns, NFT transfers, foreign code returning -/
  | other

section
variable {σ κ υ : Type}

/-- `Sys.Step`, with the entry it leaves in the ledger. -/
inductive Sys.Did (S : Sys σ κ υ) : World σ × List Msg → Entry κ υ → World σ × List Msg → Prop where
  | call (w : World σ) (stack : List Msg) (sender : Addr) (funds : List Coin) (m : κ) (q : Queries)
      (s' : σ) (msgs : List Msg)
      (hctl : S.control stack) (hne : sender ≠ S.self)
      (hfunds : ∀ d, amountOf d funds ≤ w.bank sender d)
      (hq : S.queriesOk w q)
      (hex : S.exec (S.ctx w q) sender funds m w.st = .ok (s', msgs)) :
      S.Did (w, stack) (.call sender funds m msgs)
        ({ w with bank := moveFunds w.bank sender S.self funds, st := s' }, msgs ++ stack)
  | sudo (w : World σ) (m : υ) (q : Queries) (s' : σ) (msgs : List Msg)
      (hq : S.queriesOk w q)
      (hex : S.sudo (S.ctx w q) m w.st = .ok (s', msgs)) :
      S.Did (w, []) (.sudo m msgs) ({ w with st := s' }, msgs)
  | env (w w' : World σ) (stack : List Msg) (hctl : S.control stack) (h : S.envOk w w') :
      S.Did (w, stack) (.gift (fun d => w'.bank S.self d - w.bank S.self d)) (w', stack)
  | block (w : World σ) (t h : Nat) (ht : w.time ≤ t) (hh : w.height ≤ h) :
      S.Did (w, []) .other ({ w with time := t, height := h }, [])
  | send (w : World σ) (to : Addr) (cs : List Coin) (rest : List Msg)
      (hne : cs ≠ []) (hpos : ∀ c ∈ cs, 0 < c.amount) (hbal : ∀ d, amountOf d cs ≤ w.bank S.self d) :
      S.Did (w, .send to cs :: rest) (.paid to cs) ({ w with bank := moveFunds w.bank S.self to cs }, rest)
  | fairBurn (w : World σ) (cs : List Coin) (rest : List Msg)
      (hbal : ∀ d, amountOf d cs ≤ w.bank S.self d) :
      S.Did (w, .fairBurn cs :: rest) .other ({ w with bank := takeFunds w.bank S.self cs }, rest)
  | nft (w : World σ) (c : Addr) (t : Bytes) (to : Addr) (rest : List Msg) (o : Addr)
      (hh : S.honest c) (ho : w.owner c t = some o) (hauth : o = S.self ∨ w.approved c t = true) :
      S.Did (w, .nft c t to :: rest) .other ({ w with owner := setOwner w.owner c t to }, rest)
  | initRoyalty (w : World σ) (r c : Addr) (rest : List Msg) :
      S.Did (w, .initRoyalty r c :: rest) .other (w, rest)
  | ret (w : World σ) (m : Msg) (rest : List Msg) (hf : S.foreign m) :
      S.Did (w, m :: rest) .other (w, rest)

/-- Runs with their ledger, newest entry first. -/
inductive Sys.Hist (S : Sys σ κ υ) (a : World σ × List Msg) : List (Entry κ υ) → World σ × List Msg → Prop where
  | nil : S.Hist a [] a
  | cons {es : List (Entry κ υ)} {e : Entry κ υ} {b c : World σ × List Msg} (h : S.Hist a es b) (hd : S.Did b e c) :
      S.Hist a (e :: es) c

variable {S : Sys σ κ υ}

theorem Sys.Did.step {a b : World σ × List Msg} {e : Entry κ υ} (h : S.Did a e b) : S.Step a b := by
  cases h with
  | call w stack sender funds m q s' msgs hctl hne hfunds hq hex => exact .call w stack sender funds m q s' msgs hctl hne hfunds hq hex
  | sudo w m q s' msgs hq hex => exact .sudo w m q s' msgs hq hex
  | env w w' stack hctl h => exact .env w w' stack hctl h
  | block w t h ht hh => exact .block w t h ht hh
  | send w to cs rest hne hpos hbal => exact .send w to cs rest hne hpos hbal
  | fairBurn w cs rest hbal => exact .fairBurn w cs rest hbal
  | nft w c t to rest o hh ho hauth => exact .nft w c t to rest o hh ho hauth
  | initRoyalty w r c rest => exact .initRoyalty w r c rest
  | ret w m rest hf => exact .ret w m rest hf

theorem Sys.Step.did {a b : World σ × List Msg} (h : S.Step a b) : ∃ e, S.Did a e b := by
  cases h with
  | call w stack sender funds m q s' msgs hctl hne hfunds hq hex => exact ⟨_, .call w stack sender funds m q s' msgs hctl hne hfunds hq hex⟩
  | sudo w m q s' msgs hq hex => exact ⟨_, .sudo w m q s' msgs hq hex⟩
  | env w w' stack hctl h => exact ⟨_, .env w w' stack hctl h⟩
  | block w t h ht hh => exact ⟨_, .block w t h ht hh⟩
  | send w to cs rest hne hpos hbal => exact ⟨_, .send w to cs rest hne hpos hbal⟩
  | fairBurn w cs rest hbal => exact ⟨_, .fairBurn w cs rest hbal⟩
  | nft w c t to rest o hh ho hauth => exact ⟨_, .nft w c t to rest o hh ho hauth⟩
  | initRoyalty w r c rest => exact ⟨_, .initRoyalty w r c rest⟩
  | ret w m rest hf => exact ⟨_, .ret w m rest hf⟩

theorem Sys.Hist.steps {a b : World σ × List Msg} {es : List (Entry κ υ)} (h : S.Hist a es b) : S.Steps a b := by
  induction h with
  | nil => exact .refl _
  | cons _ hd ih => exact .tail ih hd.step

/-- Every run has a ledger. -/
theorem Sys.Steps.hist {a b : World σ × List Msg} (h : S.Steps a b) : ∃ es, S.Hist a es b := by
  induction h with
  | refl => exact ⟨[], .nil⟩
  | tail _ hs ih =>
    obtain ⟨es, h⟩ := ih
    obtain ⟨e, hd⟩ := hs.did
    exact ⟨e :: es, .cons h hd⟩

/-- What a step adds to the balance beyond what was already promised. -/
def Entry.brings (self : Addr) (d : Denom) : Entry κ υ → Nat
  | .call _ funds _ _ => amountOf d funds
  | .gift given => given d
  | .paid to cs => if to = self then amountOf d cs else 0
  | _ => 0

/-- What a step newly promises to pay. -/
def Entry.owes (d : Denom) : Entry κ υ → Nat
  | .call _ _ _ msgs => outflow d msgs
  | .sudo _ msgs => outflow d msgs
  | _ => 0

/-- Balance minus pending payments changes by what the entry says. -/
theorem Sys.Did.net {a b : World σ × List Msg} {e : Entry κ υ} (h : S.Did a e b) (d : Denom) :
    b.1.bank S.self d + outflow d a.2 + e.owes d = a.1.bank S.self d + outflow d b.2 + e.brings S.self d := by
  cases h with
  | call w stack sender funds m q s' msgs hctl hne hfunds hq hex =>
    simp only [Entry.owes, Entry.brings, outflow_append]
    rw [moveFunds_to hne]
    omega
  | sudo w m q s' msgs hq hex => simp [Entry.owes, Entry.brings]
  | env w w' stack hctl h =>
    have := h.2.2.2.1 d
    simp only [Entry.owes, Entry.brings]
    omega
  | block w t h ht hh => rfl
  | send w to cs rest hne hpos hbal =>
    have := hbal d
    simp only [Entry.owes, Entry.brings, outflow_cons, Msg.out, moveFunds, if_true]
    by_cases hs : S.self = to
    · simp only [if_pos hs, if_pos hs.symm]; omega
    · simp only [if_neg hs, if_neg (fun h => hs (Eq.symm h))]; omega
  | fairBurn w cs rest hbal =>
    have := hbal d
    simp only [Entry.owes, Entry.brings, outflow_cons, Msg.out, takeFunds, if_true]
    omega
  | nft => simp [Entry.owes, Entry.brings, Msg.out]
  | initRoyalty => simp [Entry.owes, Entry.brings, Msg.out]
  | ret w m rest hf =>
    have : m.out d = 0 := by cases m <;> first | rfl | exact absurd hf id
    simp only [Entry.owes, Entry.brings, outflow_cons, this]
    omega

/-- Coins of denom `d` that came to the contract outside of calls: sent by others, or paid by the contract to itself. -/
def gifts (self : Addr) (d : Denom) : List (Entry κ υ) → Nat
  | [] => 0
  | .gift given :: es => given d + gifts self d es
  | .paid to cs :: es => (if to = self then amountOf d cs else 0) + gifts self d es
  | _ :: es => gifts self d es

/-- Sum over the calls in the ledger. -/
def onCalls (f : List Coin → κ → List Msg → Nat) : List (Entry κ υ) → Nat
  | [] => 0
  | .call _ funds m msgs :: es => f funds m msgs + onCalls f es
  | _ :: es => onCalls f es

/-- If every call leaves between `lo` and `hi` in the account that belongs to nobody, and hooks nothing, then so does the
whole history, up to coins that came from outside. `P n` is an invariant after `n` steps. -/
theorem Sys.Hist.account {escrow : σ → Denom → Nat} {d : Denom} {lo hi : List Coin → κ → List Msg → Nat} {N : Nat} {P : Nat → σ → Prop}
    (hcall : ∀ n ctx sender funds m s s' msgs, n < N → ctx.self = S.self → sender ≠ S.self → P n s →
      S.exec ctx sender funds m s = .ok (s', msgs) → P (n + 1) s' ∧
      outflow d msgs + escrow s' d + lo funds m msgs ≤ amountOf d funds + escrow s d ∧
      amountOf d funds + escrow s d ≤ outflow d msgs + escrow s' d + hi funds m msgs)
    (hsudo : ∀ n ctx m s s' msgs, ctx.self = S.self → P n s → S.sudo ctx m s = .ok (s', msgs) → P (n + 1) s' ∧
      outflow d msgs + escrow s' d = escrow s d)
    (hmono : ∀ n s, P n s → P (n + 1) s)
    {a b : World σ × List Msg} {es : List (Entry κ υ)} (h : S.Hist a es b) (hlen : es.length ≤ N) (h0 : P 0 a.1.st) :
    P es.length b.1.st ∧
    a.1.bank S.self d + escrow b.1.st d + outflow d b.2 + gifts S.self d es + onCalls lo es ≤
      b.1.bank S.self d + escrow a.1.st d + outflow d a.2 ∧
    b.1.bank S.self d + escrow a.1.st d + outflow d a.2 ≤
      a.1.bank S.self d + escrow b.1.st d + outflow d b.2 + gifts S.self d es + onCalls hi es := by
  induction h with
  | nil => refine ⟨h0, ?_, ?_⟩ <;> simp only [gifts, onCalls] <;> omega
  | @cons es e b c _ hd ih =>
    rw [List.length_cons] at hlen ⊢
    obtain ⟨hp, h1, h2⟩ := ih (by omega)
    have hnet := hd.net d
    generalize hcb : c.1.bank S.self d = cb at *
    generalize hbb : b.1.bank S.self d = bb at *
    generalize hcs : outflow d c.2 = cs at *
    generalize hbs : outflow d b.2 = bs at *
    cases hd with
    | call w stack sender funds m q s' msgs hctl hne hfunds hq hex =>
      obtain ⟨g1, g2, g3⟩ := hcall _ _ _ _ _ _ _ _ (by omega) rfl hne hp hex
      refine ⟨g1, ?_, ?_⟩ <;> simp only [gifts, onCalls, Entry.owes, Entry.brings] at * <;> omega
    | sudo w m q s' msgs hq hex =>
      obtain ⟨g1, g2⟩ := hsudo _ _ _ _ _ _ rfl hp hex
      refine ⟨g1, ?_, ?_⟩ <;> simp only [gifts, onCalls, Entry.owes, Entry.brings] at * <;> omega
    | env w w' stack hctl h =>
      refine ⟨by rw [h.1]; exact hmono _ _ hp, ?_, ?_⟩ <;> simp only [gifts, onCalls, Entry.owes, Entry.brings, h.1] at * <;> omega
    | _ => refine ⟨hmono _ _ hp, ?_, ?_⟩ <;> simp only [gifts, onCalls, Entry.owes, Entry.brings] at * <;> omega

end
end Verif

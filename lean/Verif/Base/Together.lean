/-
Several contracts on one chain. Base/Chain.lean follows one contract and lets the rest of the world do anything that does
not take the contract's coins or tokens. Here any number of contracts run side by side: one bank, one owner per token, one
clock, and one stack of pending messages, each labelled with the contract that sent it. A contract reached by a message may
call any of them before the remaining messages are executed.

The theorem `view_steps`: seen from any one of the contracts, such a run is a run of the machine of Base/Chain.lean. So
what was proved of one contract alone holds with the others beside it, and what the machine of one contract leaves to "the
rest of the world" covers the other contracts.

CosmWasm semantics (not part of /repo), as in Base/Chain.lean. Two facts about the contracts are built into the rules; both
are read off the code, since the only messages it builds are those of `Msg`:
* no contract calls another one (the sender of a call is none of them);
* no contract ever approves anybody for a token it owns (a transfer by approval needs an owner that is none of them).
-/
import Verif.Base.Chain

namespace Verif

/-- The chain shared by contracts `i : ι` with states `σ i`. -/
structure Shared {ι : Type} (σ : ι → Type) where
  bank : Addr → Denom → Nat
  owner : Addr → Bytes → Option Addr
  /-- who may transfer which token without owning it, for each contract -/
  approved : ι → Addr → Bytes → Bool
  time : Nat
  height : Nat
  st : ∀ i, σ i

namespace Joint

variable {ι : Type} {σ κ υ : ι → Type}

/-- What contract `i` sees of the chain. -/
def view (w : Shared σ) (i : ι) : World (σ i) := ⟨w.bank, w.owner, w.approved i, w.time, w.height, w.st i⟩

/-- The messages of contract `i` among the pending ones. -/
def own [DecidableEq ι] (i : ι) : List (ι × Msg) → List Msg
  | [] => []
  | (j, m) :: rest => if j = i then m :: own i rest else own i rest

/-- Label the messages of contract `i`. -/
def label (i : ι) (ms : List Msg) : List (ι × Msg) := ms.map (fun m => (i, m))

variable (S : ∀ i, Sys (σ i) (κ i) (υ i))

/-- Somebody outside the contracts is in control: nothing is pending, or the next message runs foreign code. -/
def control : List (ι × Msg) → Prop
  | [] => True
  | (i, m) :: _ => (S i).foreign m

/-- None of the contracts. -/
def Outside (a : Addr) : Prop := ∀ i, a ≠ (S i).self

/-- What the rest of the world can do by itself. -/
def envOk (w w' : Shared σ) : Prop :=
  w'.st = w.st ∧ w'.time = w.time ∧ w'.height = w.height ∧
  ∀ i, (∀ d, w.bank (S i).self d ≤ w'.bank (S i).self d) ∧
    ∀ c t, (S i).honest c → w.owner c t = some (S i).self → w'.owner c t = some (S i).self

/-- One step on (chain, pending messages). -/
inductive Step : Shared σ × List (ι × Msg) → Shared σ × List (ι × Msg) → Prop where
  /-- an account that is none of the contracts calls contract `i` -/
  | call (i : ι) (w : Shared σ) (stack : List (ι × Msg)) (sender : Addr) (funds : List Coin) (m : κ i) (q : Queries)
      (st' : ∀ j, σ j) (msgs : List Msg)
      (hctl : control S stack) (hne : Outside S sender) (hfunds : ∀ d, amountOf d funds ≤ w.bank sender d)
      (hq : (S i).queriesOk (view w i) q)
      (hex : (S i).exec ((S i).ctx (view w i) q) sender funds m (w.st i) = .ok (st' i, msgs))
      (hst : ∀ j, j ≠ i → st' j = w.st j) :
      Step (w, stack) ({ w with bank := moveFunds w.bank sender (S i).self funds, st := st' }, label i msgs ++ stack)
  /-- the chain calls `sudo` of contract `i`, between transactions -/
  | sudo (i : ι) (w : Shared σ) (m : υ i) (q : Queries) (st' : ∀ j, σ j) (msgs : List Msg)
      (hq : (S i).queriesOk (view w i) q)
      (hex : (S i).sudo ((S i).ctx (view w i) q) m (w.st i) = .ok (st' i, msgs))
      (hst : ∀ j, j ≠ i → st' j = w.st j) :
      Step (w, []) ({ w with st := st' }, label i msgs)
  /-- the rest of the world acts -/
  | env (w w' : Shared σ) (stack : List (ι × Msg)) (hctl : control S stack) (h : envOk S w w') :
      Step (w, stack) (w', stack)
  /-- a new block -/
  | block (w : Shared σ) (t h : Nat) (ht : w.time ≤ t) (hh : w.height ≤ h) :
      Step (w, []) ({ w with time := t, height := h }, [])
  /-- contract `i` sends coins -/
  | send (i : ι) (w : Shared σ) (to : Addr) (cs : List Coin) (rest : List (ι × Msg))
      (hne : cs ≠ []) (hpos : ∀ c ∈ cs, 0 < c.amount) (hbal : ∀ d, amountOf d cs ≤ w.bank (S i).self d) :
      Step (w, (i, .send to cs) :: rest) ({ w with bank := moveFunds w.bank (S i).self to cs }, rest)
  /-- contract `i` burns coins -/
  | fairBurn (i : ι) (w : Shared σ) (cs : List Coin) (rest : List (ι × Msg))
      (hbal : ∀ d, amountOf d cs ≤ w.bank (S i).self d) :
      Step (w, (i, .fairBurn cs) :: rest) ({ w with bank := takeFunds w.bank (S i).self cs }, rest)
  /-- contract `i` transfers a token of a conforming collection: it is the owner, or approved by an owner that is none of
  the contracts -/
  | nft (i : ι) (w : Shared σ) (c : Addr) (t : Bytes) (to : Addr) (rest : List (ι × Msg)) (o : Addr)
      (hh : (S i).honest c) (ho : w.owner c t = some o)
      (hauth : o = (S i).self ∨ (w.approved i c t = true ∧ Outside S o)) :
      Step (w, (i, .nft c t to) :: rest) ({ w with owner := setOwner w.owner c t to }, rest)
  /-- the royalty registry records a royalty -/
  | initRoyalty (i : ι) (w : Shared σ) (r c : Addr) (rest : List (ι × Msg)) :
      Step (w, (i, .initRoyalty r c) :: rest) (w, rest)
  /-- foreign code reached by a message of contract `i` returns -/
  | ret (i : ι) (w : Shared σ) (m : Msg) (rest : List (ι × Msg)) (hf : (S i).foreign m) :
      Step (w, (i, m) :: rest) (w, rest)

/-- Reflexive-transitive closure. -/
inductive Steps : Shared σ × List (ι × Msg) → Shared σ × List (ι × Msg) → Prop where
  | refl (c : Shared σ × List (ι × Msg)) : Steps c c
  | tail {a b c : Shared σ × List (ι × Msg)} : Steps a b → Step S b c → Steps a c

variable {S}

/-- What is pending is nested properly: below a message of contract `i`, each other contract has either nothing pending or
a message that runs foreign code (the one through which control came to `i`). -/
def Nested [DecidableEq ι] (S : ∀ i, Sys (σ i) (κ i) (υ i)) : List (ι × Msg) → Prop
  | [] => True
  | (i, _) :: rest => Nested S rest ∧ ∀ k, k ≠ i → (S k).control (own k rest)

section
variable [DecidableEq ι]

theorem own_label_self (i : ι) (ms : List Msg) (rest : List (ι × Msg)) :
    own i (label i ms ++ rest) = ms ++ own i rest := by
  induction ms with
  | nil => rfl
  | cons m ms ih =>
    show own i ((i, m) :: (label i ms ++ rest)) = _
    rw [own, if_pos rfl, ih]; rfl

theorem own_label_ne {i k : ι} (h : k ≠ i) (ms : List Msg) (rest : List (ι × Msg)) :
    own k (label i ms ++ rest) = own k rest := by
  induction ms with
  | nil => rfl
  | cons m ms ih =>
    show own k ((i, m) :: (label i ms ++ rest)) = _
    rw [own, if_neg (Ne.symm h), ih]

theorem own_cons_self (i : ι) (m : Msg) (rest : List (ι × Msg)) : own i ((i, m) :: rest) = m :: own i rest := by
  rw [own, if_pos rfl]

theorem own_cons_ne {i k : ι} (h : k ≠ i) (m : Msg) (rest : List (ι × Msg)) : own k ((i, m) :: rest) = own k rest := by
  rw [own, if_neg (Ne.symm h)]

/-- When somebody outside is in control, it is so for every contract. -/
theorem control_own {stack : List (ι × Msg)} (hn : Nested S stack) (hc : control S stack) (k : ι) :
    (S k).control (own k stack) := by
  cases stack with
  | nil => trivial
  | cons x rest =>
    obtain ⟨i, m⟩ := x
    by_cases h : k = i
    · subst h; rw [own_cons_self]; exact hc
    · rw [own_cons_ne h]; exact hn.2 k h

theorem Nested.push {stack : List (ι × Msg)} (hn : Nested S stack) (hc : ∀ k, (S k).control (own k stack)) (i : ι)
    (ms : List Msg) : Nested S (label i ms ++ stack) := by
  induction ms with
  | nil => exact hn
  | cons m ms ih =>
    refine ⟨ih, fun k hk => ?_⟩
    show (S k).control (own k (label i ms ++ stack))
    rw [own_label_ne hk]; exact hc k

theorem Nested.step {a b : Shared σ × List (ι × Msg)} (hn : Nested S a.2) (h : Step S a b) : Nested S b.2 := by
  cases h with
  | call i w stack sender funds m q st' msgs hctl hne hfunds hq hex hst => exact hn.push (control_own hn hctl) i msgs
  | sudo i w m q st' msgs hq hex hst =>
    have := Nested.push (S := S) (stack := []) trivial (fun _ => trivial) i msgs
    rwa [List.append_nil] at this
  | env w w' stack hctl h => exact hn
  | block w t h ht hh => exact hn
  | send i w to cs rest hne hpos hbal => exact hn.1
  | fairBurn i w cs rest hbal => exact hn.1
  | nft i w c t to rest o hh ho hauth => exact hn.1
  | initRoyalty i w r c rest => exact hn.1
  | ret i w m rest hf => exact hn.1

/-- Any step, seen from one of the contracts, is nothing, one of its own steps, or an act of the rest of the world. -/
theorem view_step (hself : ∀ i j, (S i).self = (S j).self → i = j) {a b : Shared σ × List (ι × Msg)} (hn : Nested S a.2)
    (h : Step S a b) (k : ι) : (S k).Steps (view a.1 k, own k a.2) (view b.1 k, own k b.2) := by
  have other : ∀ i, k ≠ i → (S k).self ≠ (S i).self := fun i hi e => hi (hself _ _ e)
  cases h with
  | call i w stack sender funds m q st' msgs hctl hne hfunds hq hex hst =>
    by_cases h : k = i
    · subst h
      rw [own_label_self]
      exact .single (.call (view w k) (own k stack) sender funds m q (st' k) msgs (control_own hn hctl k) (hne k) hfunds hq hex)
    · rw [own_label_ne h]
      refine .single (.env _ _ _ (control_own hn hctl k) ⟨hst k h, rfl, rfl, fun d => ?_, fun c t _ ho => ho⟩)
      show w.bank (S k).self d ≤ moveFunds w.bank sender (S i).self funds (S k).self d
      rw [moveFunds_other (Ne.symm (hne k)) (other i h)]
      exact Nat.le_refl _
  | sudo i w m q st' msgs hq hex hst =>
    have e := own_label_self i msgs []
    rw [List.append_nil] at e
    by_cases h : k = i
    · subst h
      rw [e, show own k ([] : List (ι × Msg)) = [] from rfl, List.append_nil]
      exact .single (.sudo (view w k) m q (st' k) msgs hq hex)
    · have e' := own_label_ne h msgs []
      rw [List.append_nil] at e'
      rw [e']
      exact .single (.env _ _ _ trivial ⟨hst k h, rfl, rfl, fun d => Nat.le_refl _, fun c t _ ho => ho⟩)
  | env w w' stack hctl h =>
    exact .single (.env _ _ _ (control_own hn hctl k)
      ⟨congrFun h.1 k, h.2.1, h.2.2.1, (h.2.2.2 k).1, (h.2.2.2 k).2⟩)
  | block w t h ht hh => exact .single (.block (view w k) t h ht hh)
  | send i w to cs rest hne hpos hbal =>
    by_cases h : k = i
    · subst h; rw [own_cons_self]
      exact .single (.send (view w k) to cs _ hne hpos hbal)
    · rw [own_cons_ne h]
      refine .single (.env _ _ _ (hn.2 k h) ⟨rfl, rfl, rfl, fun d => ?_, fun c t _ ho => ho⟩)
      show w.bank (S k).self d ≤ moveFunds w.bank (S i).self to cs (S k).self d
      simp only [moveFunds, if_neg (other i h)]
      exact Nat.le_add_right _ _
  | fairBurn i w cs rest hbal =>
    by_cases h : k = i
    · subst h; rw [own_cons_self]
      exact .single (.fairBurn (view w k) cs _ hbal)
    · rw [own_cons_ne h]
      refine .single (.env _ _ _ (hn.2 k h) ⟨rfl, rfl, rfl, fun d => ?_, fun c t _ ho => ho⟩)
      show w.bank (S k).self d ≤ takeFunds w.bank (S i).self cs (S k).self d
      simp only [takeFunds, if_neg (other i h)]
      exact Nat.le_refl _
  | nft i w c t to rest o hh ho hauth =>
    by_cases h : k = i
    · subst h; rw [own_cons_self]
      exact .single (.nft (view w k) c t to _ o hh ho (hauth.imp id And.left))
    · rw [own_cons_ne h]
      refine .single (.env _ _ _ (hn.2 k h) ⟨rfl, rfl, rfl, fun d => Nat.le_refl _, fun c' t' _ ho' => ?_⟩)
      show setOwner w.owner c t to c' t' = some (S k).self
      unfold setOwner
      split
      · rename_i he
        obtain ⟨rfl, rfl⟩ := he
        have e : o = (S k).self := by
          have := ho.symm.trans ho'
          exact Option.some.inj this
        rcases hauth with e' | ⟨_, hout⟩
        · exact absurd (e.symm.trans e') (other i h)
        · exact absurd e (hout k)
      · exact ho'
  | initRoyalty i w r c rest =>
    by_cases h : k = i
    · subst h; rw [own_cons_self]; exact .single (.initRoyalty _ r c _)
    · rw [own_cons_ne h]; exact .refl _
  | ret i w m rest hf =>
    by_cases h : k = i
    · subst h; rw [own_cons_self]; exact .single (.ret _ m _ hf)
    · rw [own_cons_ne h]; exact .refl _

theorem Nested.steps {a b : Shared σ × List (ι × Msg)} (hn : Nested S a.2) (h : Steps S a b) : Nested S b.2 := by
  induction h with
  | refl => exact hn
  | tail _ h ih => exact ih.step h

/-- A run of the contracts together, seen from one of them, is a run of that contract on its own. -/
theorem view_steps (hself : ∀ i j, (S i).self = (S j).self → i = j) {a b : Shared σ × List (ι × Msg)} (hn : Nested S a.2)
    (h : Steps S a b) (k : ι) : (S k).Steps (view a.1 k, own k a.2) (view b.1 k, own k b.2) := by
  induction h with
  | refl => exact .refl _
  | tail h1 h ih => exact Sys.Steps.trans ih (view_step hself (hn.steps h1) h k)

end
end Joint
end Verif

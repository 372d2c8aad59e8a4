/-
The chain around a contract: messages, world state, and a small-step machine with re-entrancy.
CosmWasm semantics (not part of /repo, see DESIGN.md "trusted base"):
* funds attached to a call are credited before the handler runs;
* a handler returns new state and messages; messages are executed in order after the state is written;
* an error anywhere reverts the transaction: an erroneous step is simply not a step of the machine;
* a contract reached by a message may call back before the remaining messages are executed.
-/
import Verif.Base.Coin

namespace Verif

/-- Kinds of hook messages: contracts/marketplace/src/msg.rs `AskHookMsg`, `BidHookMsg`, `CollectionBidHookMsg`,
`SaleHookMsg`. -/
inductive HookKind | ask | bid | collectionBid | sale
  deriving DecidableEq, Repr

/-- contracts/marketplace/src/msg.rs `HookAction` -/
inductive HookAction | create | update | delete
  deriving DecidableEq, Repr

/-- What a hook message tells its receiver (the fields used in properties; a sale has no action). -/
structure HookInfo where
  kind : HookKind
  action : Option HookAction
  collection : Addr
  token : Option Nat
  price : Nat
  /-- seller of an ask or sale, bidder of a bid -/
  party : Addr
  /-- buyer of a sale -/
  buyer : Option Addr
  deriving DecidableEq, Repr

/-- Messages emitted by the contracts. -/
inductive Msg where
  /-- `BankMsg::Send` -/
  | send (to : Addr) (coins : List Coin)
  /-- `WasmMsg::Execute` of cw721 `TransferNft` on collection `coll` -/
  | nft (coll : Addr) (tok : Bytes) (to : Addr)
  /-- `InitializeCollectionRoyalty` on the royalty registry -/
  | initRoyalty (registry coll : Addr)
  /-- fair burn of coins (sg1 `fair_burn` / `append_fair_burn_msg`): the coins leave the contract -/
  | fairBurn (coins : List Coin)
  /-- a hook sub-message with `reply_on_error` -/
  | hook (to : Addr) (info : HookInfo)
  deriving DecidableEq, Repr

/-- Coins of denom `d` that executing the message takes out of the contract. -/
def Msg.out (d : Denom) : Msg → Nat
  | .send _ cs => amountOf d cs
  | .fairBurn cs => amountOf d cs
  | _ => 0

theorem Msg.out_send (d : Denom) (to : Addr) (cs : List Coin) : (Msg.send to cs).out d = amountOf d cs := rfl
theorem Msg.out_fairBurn (d : Denom) (cs : List Coin) : (Msg.fairBurn cs).out d = amountOf d cs := rfl
theorem Msg.out_nft (d : Denom) (c : Addr) (t : Bytes) (to : Addr) : (Msg.nft c t to).out d = 0 := rfl
theorem Msg.out_initRoyalty (d : Denom) (r c : Addr) : (Msg.initRoyalty r c).out d = 0 := rfl
theorem Msg.out_hook (d : Denom) (a : Addr) (i : HookInfo) : (Msg.hook a i).out d = 0 := rfl

/-- Total outflow of a list of messages. -/
def outflow (d : Denom) (ms : List Msg) : Nat := (ms.map (Msg.out d)).sum

@[simp] theorem outflow_nil (d : Denom) : outflow d [] = 0 := rfl
@[simp] theorem outflow_cons (d : Denom) (m : Msg) (ms : List Msg) :
    outflow d (m :: ms) = m.out d + outflow d ms := by simp [outflow]
@[simp] theorem outflow_append (d : Denom) (a b : List Msg) :
    outflow d (a ++ b) = outflow d a + outflow d b := by simp [outflow]

/-- A royalty entry: recipient and share (Decimal atomics). -/
structure Royalty where
  recipient : Addr
  share : Nat
  deriving DecidableEq, Repr

/-- The part of sg721 `CollectionInfoResponse` that is used. `start` is in nanoseconds. -/
structure CollInfo where
  start : Option Nat
  royalty : Option Royalty
  deriving DecidableEq, Repr

/-- Answers of the cross-contract queries available to a call. `none` = the query failed. -/
structure Queries where
  /-- admin of the contract itself (`query_wasm_contract_info`) -/
  admin : Option (Option Addr)
  /-- cw721 `OwnerOf` -/
  ownerOf : Addr → Bytes → Option Addr
  /-- cw721 `Approval`/`OwnerOf` says this contract may transfer the token -/
  approval : Addr → Bytes → Bool
  /-- sg721 `CollectionInfo` -/
  collInfo : Addr → Option CollInfo
  /-- royalty registry `RoyaltyPayment`: (protocol entry, default entry) -/
  registry : Addr → Addr → Option (Option Royalty × Option Royalty)

/-- Call context: `env` and the querier. `time` in nanoseconds. -/
structure Ctx where
  self : Addr
  time : Nat
  height : Nat
  q : Queries

/-- World state around a contract with state type `σ`. -/
structure World (σ : Type) where
  bank : Addr → Denom → Nat
  owner : Addr → Bytes → Option Addr
  approved : Addr → Bytes → Bool
  time : Nat
  height : Nat
  st : σ

/-- A contract as seen by the chain. `κ` execute messages, `υ` sudo messages. -/
structure Sys (σ κ υ : Type) where
  self : Addr
  /-- collections that conform to cw721 (see DESIGN.md) -/
  honest : Addr → Prop
  exec : Ctx → Addr → List Coin → κ → σ → Res (σ × List Msg)
  sudo : Ctx → υ → σ → Res (σ × List Msg)

section
variable {σ κ υ : Type}

/-- Bank after moving `funds` from `a` to `b`. -/
def moveFunds (bank : Addr → Denom → Nat) (a b : Addr) (cs : List Coin) : Addr → Denom → Nat :=
  fun x d =>
    (if x = a then bank x d - amountOf d cs else bank x d) + (if x = b then amountOf d cs else 0)

/-- Bank after `a` loses `cs`. -/
def takeFunds (bank : Addr → Denom → Nat) (a : Addr) (cs : List Coin) : Addr → Denom → Nat :=
  fun x d => if x = a then bank x d - amountOf d cs else bank x d

def setOwner (owner : Addr → Bytes → Option Addr) (c : Addr) (t : Bytes) (to : Addr) :
    Addr → Bytes → Option Addr :=
  fun c' t' => if c' = c ∧ t' = t then some to else owner c' t'

/-- Executing the message runs code that is outside our control. -/
def Sys.foreign (S : Sys σ κ υ) : Msg → Prop
  | .nft c _ _ => ¬ S.honest c ∧ c ≠ S.self
  | .hook _ _ => True
  | _ => False

/-- Foreign code (or, with an empty stack, any user) is in control and may call the contract. -/
def Sys.control (S : Sys σ κ υ) : List Msg → Prop
  | [] => True
  | m :: _ => S.foreign m

/-- Query answers agree with the world as far as conforming collections are concerned. -/
def Sys.queriesOk (S : Sys σ κ υ) (w : World σ) (q : Queries) : Prop :=
  ∀ c t, S.honest c → q.ownerOf c t = w.owner c t

def Sys.ctx (S : Sys σ κ υ) (w : World σ) (q : Queries) : Ctx := ⟨S.self, w.time, w.height, q⟩

/-- What the rest of the world can do by itself: anything, except taking coins or (on conforming
collections) tokens from the contract, or changing its state. -/
def Sys.envOk (S : Sys σ κ υ) (w w' : World σ) : Prop :=
  w'.st = w.st ∧ w'.time = w.time ∧ w'.height = w.height ∧
  (∀ d, w.bank S.self d ≤ w'.bank S.self d) ∧
  (∀ c t, S.honest c → w.owner c t = some S.self → w'.owner c t = some S.self)

/-- One step of the machine on (world, pending messages). -/
inductive Sys.Step (S : Sys σ κ υ) : World σ × List Msg → World σ × List Msg → Prop where
  /-- a call by an account other than the contract itself -/
  | call (w : World σ) (stack : List Msg) (sender : Addr) (funds : List Coin) (m : κ) (q : Queries)
      (s' : σ) (msgs : List Msg)
      (hctl : S.control stack) (hne : sender ≠ S.self)
      (hfunds : ∀ d, amountOf d funds ≤ w.bank sender d)
      (hq : S.queriesOk w q)
      (hex : S.exec (S.ctx w q) sender funds m w.st = .ok (s', msgs)) :
      S.Step (w, stack) ({ w with bank := moveFunds w.bank sender S.self funds, st := s' }, msgs ++ stack)
  /-- a sudo call by the chain, between transactions -/
  | sudo (w : World σ) (m : υ) (q : Queries) (s' : σ) (msgs : List Msg)
      (hq : S.queriesOk w q)
      (hex : S.sudo (S.ctx w q) m w.st = .ok (s', msgs)) :
      S.Step (w, []) ({ w with st := s' }, msgs)
  /-- the rest of the world acts -/
  | env (w w' : World σ) (stack : List Msg) (hctl : S.control stack) (h : S.envOk w w') :
      S.Step (w, stack) (w', stack)
  /-- a new block -/
  | block (w : World σ) (t h : Nat) (ht : w.time ≤ t) (hh : w.height ≤ h) :
      S.Step (w, []) ({ w with time := t, height := h }, [])
  /-- bank send: fails on empty or zero coins or insufficient balance -/
  | send (w : World σ) (to : Addr) (cs : List Coin) (rest : List Msg)
      (hne : cs ≠ []) (hpos : ∀ c ∈ cs, 0 < c.amount) (hbal : ∀ d, amountOf d cs ≤ w.bank S.self d) :
      S.Step (w, .send to cs :: rest) ({ w with bank := moveFunds w.bank S.self to cs }, rest)
  /-- fair burn -/
  | fairBurn (w : World σ) (cs : List Coin) (rest : List Msg)
      (hbal : ∀ d, amountOf d cs ≤ w.bank S.self d) :
      S.Step (w, .fairBurn cs :: rest) ({ w with bank := takeFunds w.bank S.self cs }, rest)
  /-- NFT transfer on a conforming collection: the contract must be owner or approved -/
  | nft (w : World σ) (c : Addr) (t : Bytes) (to : Addr) (rest : List Msg) (o : Addr)
      (hh : S.honest c) (ho : w.owner c t = some o) (hauth : o = S.self ∨ w.approved c t = true) :
      S.Step (w, .nft c t to :: rest) ({ w with owner := setOwner w.owner c t to }, rest)
  /-- the royalty registry records the collection's royalty; nothing observable here -/
  | initRoyalty (w : World σ) (r c : Addr) (rest : List Msg) :
      S.Step (w, .initRoyalty r c :: rest) (w, rest)
  /-- foreign code returns (for hooks: also when it failed, because of `reply_on_error`) -/
  | ret (w : World σ) (m : Msg) (rest : List Msg) (hf : S.foreign m) :
      S.Step (w, m :: rest) (w, rest)

/-- Reflexive-transitive closure. -/
inductive Sys.Steps (S : Sys σ κ υ) : World σ × List Msg → World σ × List Msg → Prop where
  | refl (c : World σ × List Msg) : S.Steps c c
  | tail {a b c : World σ × List Msg} : S.Steps a b → S.Step b c → S.Steps a c

theorem Sys.Steps.trans {S : Sys σ κ υ} {a b c : World σ × List Msg} (h1 : S.Steps a b) (h2 : S.Steps b c) :
    S.Steps a c := by
  induction h2 with
  | refl => exact h1
  | tail _ h ih => exact .tail ih h

theorem Sys.Steps.single {S : Sys σ κ υ} {a b : World σ × List Msg} (h : S.Step a b) : S.Steps a b :=
  .tail (.refl _) h

/-- Invariant rule. -/
theorem Sys.Steps.inv {S : Sys σ κ υ} {P : World σ × List Msg → Prop}
    (hstep : ∀ a b, P a → S.Step a b → P b) {a b : World σ × List Msg} (h : S.Steps a b) (ha : P a) : P b := by
  induction h with
  | refl => exact ha
  | tail _ h ih => exact hstep _ _ ih h

/-- Balance covers escrow plus everything still to be sent. -/
def Sys.Solvent (S : Sys σ κ υ) (escrow : σ → Denom → Nat) (c : World σ × List Msg) : Prop :=
  ∀ d, escrow c.1.st d + outflow d c.2 ≤ c.1.bank S.self d

theorem moveFunds_to {bank : Addr → Denom → Nat} {a b : Addr} {cs : List Coin} (h : a ≠ b) (d : Denom) :
    moveFunds bank a b cs b d = bank b d + amountOf d cs := by
  have h' : b ≠ a := fun e => h e.symm
  simp [moveFunds, h']

theorem moveFunds_from {bank : Addr → Denom → Nat} {a b : Addr} {cs : List Coin} (h : a ≠ b) (d : Denom) :
    moveFunds bank a b cs a d = bank a d - amountOf d cs := by
  simp [moveFunds, h]

theorem moveFunds_from_ge {bank : Addr → Denom → Nat} {a b : Addr} {cs : List Coin} (d : Denom) :
    bank a d - amountOf d cs ≤ moveFunds bank a b cs a d := by
  simp [moveFunds]

theorem moveFunds_other {bank : Addr → Denom → Nat} {a b x : Addr} {cs : List Coin} (h1 : x ≠ a)
    (h2 : x ≠ b) (d : Denom) : moveFunds bank a b cs x d = bank x d := by
  simp [moveFunds, h1, h2]

/-- Solvency is preserved by every machine step, if each handler conserves funds.
`I` is an auxiliary state invariant. -/
theorem Sys.solvent_step {S : Sys σ κ υ} {escrow : σ → Denom → Nat} {I : σ → Prop}
    (hexec : ∀ ctx sender funds m s s' msgs, ctx.self = S.self → sender ≠ S.self → I s →
      S.exec ctx sender funds m s = .ok (s', msgs) →
      ∀ d, outflow d msgs + escrow s' d ≤ amountOf d funds + escrow s d)
    (hsudo : ∀ ctx m s s' msgs, ctx.self = S.self → I s → S.sudo ctx m s = .ok (s', msgs) →
      ∀ d, outflow d msgs + escrow s' d ≤ escrow s d)
    {a b : World σ × List Msg} (hI : I a.1.st) (hs : S.Solvent escrow a) (h : S.Step a b) :
    S.Solvent escrow b := by
  cases h with
  | call w stack sender funds m q s' msgs hctl hne hfunds hq hex =>
    intro d
    have h1 := hs d
    have h2 := hexec _ _ _ _ _ _ _ rfl hne hI hex d
    simp only [outflow_append] at *
    rw [moveFunds_to hne]
    omega
  | sudo w m q s' msgs hq hex =>
    intro d
    have h1 := hs d
    have h2 := hsudo _ _ _ _ _ rfl hI hex d
    simp only [outflow_nil] at *
    omega
  | env w w' stack hctl h =>
    intro d
    have h1 := hs d
    have h2 := h.2.2.2.1 d
    simp only [h.1] at *
    omega
  | block w t h ht hh => exact hs
  | send w to cs rest hne hpos hbal =>
    intro d
    have h1 := hs d
    have h2 := hbal d
    have h3 := moveFunds_from_ge (bank := w.bank) (a := S.self) (b := to) (cs := cs) d
    simp only [outflow_cons, Msg.out] at *
    omega
  | fairBurn w cs rest hbal =>
    intro d
    have h1 := hs d
    have h2 := hbal d
    simp only [outflow_cons, Msg.out, takeFunds, if_true] at *
    omega
  | nft w c t to rest o hh ho hauth =>
    intro d
    have h1 := hs d
    simpa [Msg.out] using h1
  | initRoyalty w r c rest =>
    intro d
    have h1 := hs d
    simpa [Msg.out] using h1
  | ret w m rest hf =>
    intro d
    have h1 := hs d
    simp only [outflow_cons] at *
    omega

/-- A state invariant preserved by all handlers holds along every run. -/
theorem Sys.state_inv_step {S : Sys σ κ υ} {I : σ → Prop}
    (hexec : ∀ ctx sender funds m s s' msgs, ctx.self = S.self → sender ≠ S.self → I s →
      S.exec ctx sender funds m s = .ok (s', msgs) → I s')
    (hsudo : ∀ ctx m s s' msgs, ctx.self = S.self → I s → S.sudo ctx m s = .ok (s', msgs) → I s')
    {a b : World σ × List Msg} (hI : I a.1.st) (h : S.Step a b) : I b.1.st := by
  cases h with
  | call w stack sender funds m q s' msgs hctl hne hfunds hq hex => exact hexec _ _ _ _ _ _ _ rfl hne hI hex
  | sudo w m q s' msgs hq hex => exact hsudo _ _ _ _ _ rfl hI hex
  | env w w' stack hctl h => simpa [h.1] using hI
  | block w t h ht hh => exact hI
  | send w to cs rest hne hpos hbal => exact hI
  | fairBurn w cs rest hbal => exact hI
  | nft w c t to rest o hh ho hauth => exact hI
  | initRoyalty w r c rest => exact hI
  | ret w m rest hf => exact hI

end
end Verif

/-
C139, C140: the three contracts deployed side by side, in any number of copies, on one chain (Base/Together.lean).
-/
import Verif.Base.Together
import Verif.V2.PropsFunds
import Verif.V2.PropsSale
import Verif.Auction.PropsBook
import Verif.V1.PropsFunds
import Verif.V1.PropsSale

namespace Verif.Together
open Verif

/-! ### Specification -/

/-- Which contract is deployed, with which parameters. -/
inductive Code where
  | v2 (p : V2.Params)
  | auction (p : Auction.Params)
  | v1 (p : V1.Params)

namespace Code

@[reducible] def State : Code → Type
  | .v2 _ => V2.State
  | .auction _ => Auction.State
  | .v1 _ => V1.State

@[reducible] def Exec : Code → Type
  | .v2 _ => V2.Exec
  | .auction _ => Auction.Exec
  | .v1 _ => V1.Exec

@[reducible] def Sudo : Code → Type
  | .v2 _ => Empty
  | .auction _ => Auction.Sudo
  | .v1 _ => V1.Sudo

/-- The contract on the chain, at address `self`. -/
def sys : (c : Code) → Addr → (Addr → Prop) → Sys c.State c.Exec c.Sudo
  | .v2 p, self, honest => V2.sys p self honest
  | .auction p, self, honest => Auction.sys p self honest
  | .v1 p, self, honest => V1.sys p self honest

/-- A state the contract can be instantiated with. -/
def Fresh : (c : Code) → c.State → Prop
  | .v2 p, s => ∃ cfg, V2.instantiate p cfg = .ok s
  | .auction p, s => ∃ cfg mins, Auction.instantiate p cfg mins = .ok s
  | .v1 p, s => ∃ i, V1.instantiate p i = .ok s

/-- Tokens the contract keeps for somebody: listed in v2, under auction. v1 leaves tokens with their owners. -/
def Keeps : (c : Code) → c.State → Addr → Bytes → Prop
  | .v2 _, s, coll, tok => ∃ id a, s.asks.get? id = some a ∧ a.collection = coll ∧ a.tokenId = tok
  | .auction _, s, coll, tok => ∃ a, s.auctions.get? (coll, tok) = some a
  | .v1 _, _, _, _ => False

/-- Coins the contract keeps for bidders. -/
def Owes : (c : Code) → c.State → Denom → Nat
  | .v2 _, s, d => amountOf d (V2.Spec.bidCoins s)
  | .auction _, s, d => amountOf d (Auction.Spec.highBids s)
  | .v1 _, s, d => if d = V1.Spec.ustars then V1.Spec.openBids s else 0

/-- The runs of the contract on its own, as in the properties of each contract. -/
def Alone : (c : Code) → Addr → (Addr → Prop) → World c.State × List Msg → Prop
  | .v2 p, self, honest, x => V2.Spec.Run p self honest x
  | .auction p, self, honest, x => Auction.Spec.Run p self honest x
  | .v1 p, self, honest, x => V1.Spec.Run p self honest x

/-- Assumptions on parameters: a page holds something; the sg-marketplace-common helpers do what they say. -/
def Ok : Code → Prop
  | .v2 p => 1 ≤ p.maxLimit
  | .auction p => Auction.Spec.LibOk p.lib
  | .v1 _ => True

/-- v2 only: different keys have different identifiers. -/
def Keyed : Code → Prop
  | .v2 p => V2.Spec.HashInj p ∧ V2.Spec.PrefixFree p
  | _ => True

/-- The call puts the token up for sale, or sells it. -/
inductive Offers : (c : Code) → c.State → c.Exec → Addr → Bytes → Prop where
  | v2Ask {p : V2.Params} {s : V2.State} (c t : Bytes) (d : V2.Details) : Offers (.v2 p) s (V2.Exec.setAsk c t d) c t
  | v2Sell {p : V2.Params} {s : V2.State} (c t : Bytes) (d : V2.Details) : Offers (.v2 p) s (V2.Exec.sellNft c t d) c t
  | v2Bid {p : V2.Params} {s : V2.State} (id : Bytes) (d : V2.Details) (b : V2.Bid) (hb : s.bids.get? id = some b) :
      Offers (.v2 p) s (V2.Exec.acceptBid id d) b.collection b.tokenId
  | v2CBid {p : V2.Params} {s : V2.State} (id t : Bytes) (d : V2.Details) (b : V2.CBid) (hb : s.cbids.get? id = some b) :
      Offers (.v2 p) s (V2.Exec.acceptCollectionBid id t d) b.collection t
  | create {p : Auction.Params} {s : Auction.State} (c t : Bytes) (r : Coin) (d : Nat) (rec : Option Bytes) :
      Offers (.auction p) s (Auction.Exec.create c t r d rec) c t
  | v1Ask {p : V1.Params} {s : V1.State} (ty : V1.SaleType) (c : Addr) (t : Nat) (price : Coin) (rcpt res : Option Addr)
      (fee : Option Nat) (e : Nat) : Offers (.v1 p) s (V1.Exec.setAsk ty c t price rcpt res fee e) c (V1.tokStr t)
  | v1Bid {p : V1.Params} {s : V1.State} (c : Addr) (t : Nat) (b : Addr) (f : Option Addr) :
      Offers (.v1 p) s (V1.Exec.acceptBid c t b f) c (V1.tokStr t)
  | v1CBid {p : V1.Params} {s : V1.State} (c : Addr) (t : Nat) (b : Addr) (f : Option Addr) :
      Offers (.v1 p) s (V1.Exec.acceptCollectionBid c t b f) c (V1.tokStr t)

end Code

section
variable {ι : Type} [DecidableEq ι] {code : ι → Code} {addr : ι → Addr} {honest : Addr → Prop}

/-- The contracts `code i` at the addresses `addr i`. -/
def site (code : ι → Code) (addr : ι → Addr) (honest : Addr → Prop) (i : ι) :
    Sys (code i).State (code i).Exec (code i).Sudo := (code i).sys (addr i) honest

/-- What can be reached when all of them start from fresh deployments at different addresses. -/
def Chain (code : ι → Code) (addr : ι → Addr) (honest : Addr → Prop)
    (x : Shared (fun i => (code i).State) × List (ι × Msg)) : Prop :=
  (∀ i j, addr i = addr j → i = j) ∧ ∃ w0 : Shared (fun i => (code i).State), (∀ i, (code i).Fresh (w0.st i)) ∧
    Joint.Steps (site code addr honest) (w0, []) x

variable {w : Shared (fun i => (code i).State)} {stack : List (ι × Msg)}

theorem Code.sys_self (c : Code) (self : Addr) (honest : Addr → Prop) : (c.sys self honest).self = self := by
  cases c <;> rfl
theorem Code.sys_honest (c : Code) (self : Addr) (honest : Addr → Prop) : (c.sys self honest).honest = honest := by
  cases c <;> rfl

omit [DecidableEq ι] in
theorem site_self (i : ι) : (site code addr honest i).self = addr i := Code.sys_self _ _ _

omit [DecidableEq ι] in
theorem site_honest (i : ι) : (site code addr honest i).honest = honest := Code.sys_honest _ _ _

theorem Code.alone {c : Code} {me : Addr} {honest : Addr → Prop} {v0 : World c.State} {x : World c.State × List Msg}
    (hf : c.Fresh v0.st) (h : (c.sys me honest).Steps (v0, []) x) : c.Alone me honest x := by
  cases c with
  | v2 p => obtain ⟨cfg, hi⟩ := hf; exact ⟨cfg, v0, hi, h⟩
  | auction p => obtain ⟨cfg, mins, hi⟩ := hf; exact ⟨cfg, mins, v0, hi, h⟩
  | v1 p => obtain ⟨ini, hi⟩ := hf; exact ⟨ini, v0, hi, h⟩

theorem Chain.nested (h : Chain code addr honest (w, stack)) : Joint.Nested (site code addr honest) stack := by
  obtain ⟨_, w0, _, hs⟩ := h
  exact Joint.Nested.steps (a := (w0, [])) trivial hs

/-! ### C139 -/

/-- Each contract, with the others beside it, behaves as on its own: what it sees of a common run is one of its own runs.
So every property of the runs of one contract holds on the common chain too. -/
theorem C139_alone (h : Chain code addr honest (w, stack)) (i : ι) :
    (code i).Alone (addr i) honest (Joint.view w i, Joint.own i stack) := by
  obtain ⟨hinj, w0, hf, hs⟩ := h
  have hv := Joint.view_steps (S := site code addr honest)
    (fun i j e => hinj i j (by rw [site_self, site_self] at e; exact e)) (a := (w0, [])) trivial hs i
  exact Code.alone (hf i) hv

theorem custody_control {p : Auction.Params} {me : Addr} {honest : Addr → Prop} (hl : Auction.Spec.LibOk p.lib)
    {w : World Auction.State} {stack : List Msg} (h : Auction.Spec.Run p me honest (w, stack))
    (hc : (Auction.sys p me honest).control stack) {coll tok : Bytes} {a : Auction.Auction}
    (ha : w.st.auctions.get? (coll, tok) = some a) (hh : honest coll) : w.owner coll tok = some me := by
  have hJ := Auction.Spec.Run.custody hl h
  have hesc : (Auction.sys p me honest).Esc Auction.held w.st w.owner := by
    cases stack with
    | nil => exact hJ
    | cons m rest =>
      cases m with
      | nft c' t' to => exact (hJ.2 hc.1).1
      | hook to i => exact hJ.1
      | send => exact absurd hc (fun h => h)
      | fairBurn => exact absurd hc (fun h => h)
      | initRoyalty => exact absurd hc (fun h => h)
  exact hesc coll tok hh (by show w.st.auctions.get? (coll, tok) ≠ none; rw [ha]; simp)

theorem Code.kept {c : Code} {me : Addr} {honest : Addr → Prop} {v : World c.State} {ms : List Msg} (hok : c.Ok)
    (hr : c.Alone me honest (v, ms)) (hc : (c.sys me honest).control ms) {coll tok : Bytes} (hh : honest coll)
    (hk : c.Keeps v.st coll tok) : v.owner coll tok = some me := by
  cases c with
  | v2 p => obtain ⟨id, a, ha, rfl, rfl⟩ := hk; exact V2.C07_custody_nested hok hr hc ha hh
  | auction p => obtain ⟨a, ha⟩ := hk; exact custody_control hok hr hc ha hh
  | v1 p => exact absurd hk (fun h => h)

theorem Code.backed {c : Code} {me : Addr} {honest : Addr → Prop} {v : World c.State} {ms : List Msg} (hok : c.Ok)
    (hr : c.Alone me honest (v, ms)) (d : Denom) : c.Owes v.st d + V2.Spec.paidOut d ms ≤ v.bank me d := by
  rw [← V2.outflow_eq]
  cases c with
  | v2 p => rw [V2.outflow_eq]; exact V2.C03_backed hok hr d
  | auction p => rw [Auction.outflow_eq]; exact Auction.C27_backed hok hr d
  | v1 p =>
    rw [V1.outflow_eq]
    show (if d = V1.Spec.ustars then V1.Spec.openBids v.st else 0) + _ ≤ _
    split
    · rename_i e; rw [e]; exact (V1.C44_backed hr).1
    · rename_i e; rw [Nat.zero_add]; exact (V1.C44_backed hr).2 d e

/-- Whenever anybody can make a call, a token of a conforming collection that one of the contracts keeps belongs to that
contract. -/
theorem C139_kept (h : Chain code addr honest (w, stack)) (hc : Joint.control (site code addr honest) stack) {i : ι}
    (hok : (code i).Ok) {coll tok : Bytes} (hh : honest coll) (hk : (code i).Keeps (w.st i) coll tok) :
    w.owner coll tok = some (addr i) :=
  Code.kept hok (C139_alone h i) (Joint.control_own h.nested hc i) hh hk

/-- So no token is kept by two of them: not listed twice, not under two auctions, not listed and under auction. -/
theorem C139_once (h : Chain code addr honest (w, stack)) (hc : Joint.control (site code addr honest) stack) {i j : ι}
    (hi : (code i).Ok) (hj : (code j).Ok) {coll tok : Bytes} (hh : honest coll)
    (hki : (code i).Keeps (w.st i) coll tok) (hkj : (code j).Keeps (w.st j) coll tok) : i = j := by
  have h1 := C139_kept h hc hi hh hki
  rw [C139_kept h hc hj hh hkj] at h1
  exact (h.1 _ _ (Option.some.inj h1)).symm

/-- At every point of every common run, with any messages of any of them pending, the balance of each covers what it keeps
for bidders and what it still has to pay. -/
theorem C139_backed (h : Chain code addr honest (w, stack)) (i : ι) (hok : (code i).Ok) (d : Denom) :
    (code i).Owes (w.st i) d + V2.Spec.paidOut d (Joint.own i stack) ≤ w.bank (addr i) d :=
  Code.backed hok (C139_alone h i) d

/-! ### C140 -/

theorem reach_of {p : V2.Params} {me : Addr} {honest : Addr → Prop} {x : World V2.State × List Msg}
    (h : V2.Spec.Run p me honest x) : V2.Spec.Reach p me (fun _ => True) x.1.st := by
  obtain ⟨c, w0, hi, hs⟩ := h
  refine Sys.Steps.inv (P := fun y => V2.Spec.Reach p me (fun _ => True) y.1.st) ?_ hs (.init hi)
  intro a b hr hab
  cases hab with
  | call w stack sender funds m q s' msgs hctl hne hfunds hq hex => exact .call hr trivial rfl hne hex
  | sudo w m => exact nomatch m
  | env w w' stack hctl h => rw [h.1]; exact hr
  | block | send | fairBurn | nft | initRoyalty | ret => exact hr

theorem Code.owner_offers {c : Code} {me : Addr} {honest : Addr → Prop} {v : World c.State} {ms : List Msg} (hok : c.Ok)
    (hkey : c.Keyed) (hr : c.Alone me honest (v, ms)) {coll tok : Bytes} (hnk : ¬ c.Keeps v.st coll tok) {m : c.Exec}
    (hm : c.Offers v.st m coll tok) {ctx : Ctx} {sender : Addr} {funds : List Coin} {r : c.State × List Msg}
    (hx : (c.sys me honest).exec ctx sender funds m v.st = .ok r) {o : Addr} (ho : ctx.q.ownerOf coll tok = some o) :
    o = sender := by
  obtain ⟨s', msgs⟩ := r
  cases c with
  | v2 p =>
    have hO : V2.Offers v.st m coll tok := by
      cases hm with
      | v2Ask c t d => exact .setAsk ..
      | v2Sell c t d => exact .sellNft ..
      | v2Bid id d b hb => exact .acceptBid id d b hb (fun i a ha h1 h2 => hnk ⟨i, a, ha, h1, h2⟩)
      | v2CBid id t d b hb => exact .acceptCBid id _ d b hb (fun i a ha h1 h2 => hnk ⟨i, a, ha, h1, h2⟩)
    rcases V2.C26_partial (reach_of hr) hkey.1 hkey.2 hO hx with e | e
    · rw [ho] at e; exact Option.some.inj e
    · rw [ho] at e; cases e
  | auction p =>
    cases hm with
    | create c t r d rec => exact (Auction.C81_create hok hx).1 _ ho
  | v1 p =>
    have key : ∀ t, tok = V1.tokStr t → V1.Spec.ownerOnly m = some (coll, t) → o = sender := by
      rintro t rfl ht
      have e := V1.C51_owner ht hx
      rw [ho] at e; exact Option.some.inj e
    cases hm with
    | v1Ask ty c t price rcpt res fee e => exact key t rfl rfl
    | v1Bid c t b f => exact key t rfl rfl
    | v1CBid c t b f => exact key t rfl rfl

/-- A token one of the contracts keeps cannot be offered or sold through another one: whoever makes the call, it fails. -/
theorem C140_refused (h : Chain code addr honest (w, stack)) (hc : Joint.control (site code addr honest) stack) {i j : ι}
    (hij : i ≠ j) (hi : (code i).Ok) (hj : (code j).Ok) (hjk : (code j).Keyed) {coll tok : Bytes} (hh : honest coll)
    (hk : (code i).Keeps (w.st i) coll tok) {sender : Addr} (hs : Joint.Outside (site code addr honest) sender)
    {funds : List Coin} {m : (code j).Exec} (hm : (code j).Offers (w.st j) m coll tok) {q : Queries}
    (hq : (site code addr honest j).queriesOk (Joint.view w j) q) :
    ∀ r, (site code addr honest j).exec ((site code addr honest j).ctx (Joint.view w j) q) sender funds m (w.st j) ≠ .ok r := by
  intro r hx
  have ho : q.ownerOf coll tok = some (addr i) :=
    (hq coll tok (by rw [site_honest]; exact hh)).trans (C139_kept h hc hi hh hk)
  have hnk : ¬ (code j).Keeps (w.st j) coll tok := fun hkj => hij (C139_once h hc hi hj hh hk hkj)
  have e := Code.owner_offers (v := Joint.view w j) hj hjk (C139_alone h j) hnk hm hx ho
  exact hs i (by rw [site_self]; exact e.symm)
end

/-! ### An example: one deployment of each -/

namespace Sample

inductive Site | market | house | old
  deriving DecidableEq

@[reducible] def code : Site → Code
  | .market => .v2 V2.Sample.P
  | .house => .auction Auction.Sample.P
  | .old => .v1 V1.Sample.P

def house : Addr := [11, 11, 11]
def addr : Site → Addr
  | .market => [1, 1, 1]
  | .house => house
  | .old => [12, 12, 12]

abbrev hon : Addr → Prop := fun _ => True
abbrev S := site code addr hon
def alice : Addr := [5, 5, 5]
def bob : Addr := [6, 6, 6]
def coll : Addr := [4, 4, 4]
def tok1 : Bytes := [49]
def tok2 : Bytes := [50]
def ust : Denom := [117]

abbrev Wd := Shared (fun i => (code i).State)

/-- alice owns token 1, bob token 2 -/
def w0 : Wd where
  bank a d := if d = ust ∧ (a = alice ∨ a = bob) then 1000 else 0
  owner c t := if c = coll then if t = tok1 then some alice else if t = tok2 then some bob else none else none
  approved _ _ _ := true
  time := 1000000000000
  height := 7
  st := fun
    | .market => V2.Sample.s0
    | .house => Auction.Sample.s0
    | .old => V1.Sample.s0

theorem chain0 : Chain code addr hon (w0, []) := by
  refine ⟨?_, w0, ?_, .refl _⟩
  · intro i j
    cases i <;> cases j <;> decide
  · intro i
    cases i
    · exact ⟨_, V2.Sample.init0⟩
    · exact ⟨_, _, Auction.Sample.init0⟩
    · exact ⟨_, V1.Sample.init0⟩

theorem chain_step {a b : Wd × List (Site × Msg)} (h : Chain code addr hon a) (hs : Joint.Step S a b) :
    Chain code addr hon b := by
  obtain ⟨h1, w, h2, h3⟩ := h
  exact ⟨h1, w, h2, .tail h3 hs⟩

def qw (w : Wd) : Queries := { V2.Sample.q none none with ownerOf := w.owner }

theorem out {a : Addr} (h : a ≠ [1, 1, 1] ∧ a ≠ [11, 11, 11] ∧ a ≠ [12, 12, 12]) : Joint.Outside S a := by
  intro i
  cases i
  · exact h.1
  · exact h.2.1
  · exact h.2.2

theorem ust_only {n : Nat} {bank : Denom → Nat} (h : n ≤ bank ust) : ∀ d, amountOf d [⟨ust, n⟩] ≤ bank d := by
  intro d
  simp only [amountOf, Coin.inDenom]
  by_cases e : d = ust
  · subst e; simpa using h
  · rw [if_neg (fun h => e h.symm)]; exact Nat.zero_le _

/-- the admin sets a listing fee of 5 -/
def wa : Wd := { w0 with
  bank := moveFunds w0.bank [8, 8, 8] [1, 1, 1] []
  st := fun
    | .market => (V2.Sample.run ⟨[1, 1, 1], w0.time, w0.height, qw w0⟩ [8, 8, 8] [] (.setListingFee ⟨ust, 5⟩) V2.Sample.s0).1
    | .house => Auction.Sample.s0
    | .old => V1.Sample.s0 }
theorem chaina : Chain code addr hon (wa, []) := by
  have hx := V2.Sample.run_eq (c := ⟨[1, 1, 1], w0.time, w0.height, qw w0⟩) (sender := [8, 8, 8]) (funds := [])
    (m := .setListingFee ⟨ust, 5⟩) (s := V2.Sample.s0) (by decide +kernel)
  have := chain_step chain0 (Joint.Step.call (S := S) .market w0 [] [8, 8, 8] [] (V2.Exec.setListingFee ⟨ust, 5⟩) (qw w0) wa.st _
    trivial (out (by decide)) (fun _ => Nat.zero_le _) (fun _ _ _ => rfl) hx
    (by intro j hj; cases j <;> first | rfl | exact absurd rfl hj))
  exact this
/-- alice lists token 1 in v2 -/
def lists : V2.Exec := .setAsk coll tok1 (V2.Sample.det 100)
def r1 : V2.State × List Msg := V2.Sample.run ⟨[1, 1, 1], wa.time, wa.height, qw wa⟩ alice [⟨ust, 5⟩] lists (wa.st .market)
def w1 : Wd := { wa with
  bank := moveFunds wa.bank alice [1, 1, 1] [⟨ust, 5⟩]
  st := fun
    | .market => r1.1
    | .house => Auction.Sample.s0
    | .old => V1.Sample.s0 }
theorem chain1 : Chain code addr hon (w1, [(.market, .send [2, 2, 2] [⟨ust, 5⟩]), (.market, .nft coll tok1 [1, 1, 1])]) := by
  have hx : V2.execute V2.Sample.P ⟨[1, 1, 1], wa.time, wa.height, qw wa⟩ alice [⟨ust, 5⟩] lists (wa.st .market) = .ok r1 :=
    V2.Sample.run_eq (by decide +kernel)
  have e : r1.2 = [.send [2, 2, 2] [⟨ust, 5⟩], .nft coll tok1 [1, 1, 1]] := by decide +kernel
  have := chain_step chaina (Joint.Step.call (S := S) .market wa [] alice [⟨ust, 5⟩] lists (qw wa) w1.st r1.2 trivial
    (out (by decide)) (ust_only (by decide +kernel)) (fun _ _ _ => rfl) hx (by intro j hj; cases j <;> first | rfl | exact absurd rfl hj))
  rw [e] at this
  exact this

/-- the fee is paid and the token transferred -/
def wb : Wd := { w1 with bank := moveFunds w1.bank [1, 1, 1] [2, 2, 2] [⟨ust, 5⟩] }
theorem chainb : Chain code addr hon (wb, [(.market, .nft coll tok1 [1, 1, 1])]) :=
  chain_step chain1 (Joint.Step.send (S := S) .market w1 [2, 2, 2] [⟨ust, 5⟩] _ (by simp) (by simp) (ust_only (by decide +kernel)))
def w2 : Wd := { wb with owner := setOwner wb.owner coll tok1 [1, 1, 1] }
theorem chain2 : Chain code addr hon (w2, []) :=
  chain_step chainb (Joint.Step.nft (S := S) .market wb coll tok1 [1, 1, 1] [] alice trivial (by decide +kernel)
    (Or.inr ⟨rfl, out (by decide)⟩))

/-- bob puts token 2 up for auction -/
def auctions : Auction.Exec := .create coll tok2 ⟨ust, 100⟩ 60 none
def r3 : Auction.State × List Msg :=
  Auction.Sample.run ⟨house, w2.time, w2.height, qw w2⟩ bob [⟨ust, 5⟩] auctions Auction.Sample.s0
def w3 : Wd := { w2 with
  bank := moveFunds w2.bank bob house [⟨ust, 5⟩]
  st := fun
    | .market => r1.1
    | .house => r3.1
    | .old => V1.Sample.s0 }
theorem chain3 : Chain code addr hon (w3, [(.house, .fairBurn [⟨ust, 5⟩]), (.house, .nft coll tok2 house)]) := by
  have hx : Auction.execute Auction.Sample.P ⟨house, w2.time, w2.height, qw w2⟩ bob [⟨ust, 5⟩] auctions
      Auction.Sample.s0 = .ok r3 := Auction.Sample.run_eq (by decide +kernel)
  have e : r3.2 = [.fairBurn [⟨ust, 5⟩], .nft coll tok2 house] := by decide +kernel
  have := chain_step chain2 (Joint.Step.call (S := S) .house w2 [] bob [⟨ust, 5⟩] auctions (qw w2) w3.st r3.2 trivial
    (out (by decide)) (ust_only (by decide +kernel)) (fun _ _ _ => rfl) hx
    (by intro j hj; cases j <;> first | rfl | exact absurd rfl hj))
  rw [e] at this
  exact this

def w4 : Wd := { w3 with bank := takeFunds w3.bank house [⟨ust, 5⟩] }
theorem chain4 : Chain code addr hon (w4, [(.house, .nft coll tok2 house)]) :=
  chain_step chain3 (Joint.Step.fairBurn (S := S) .house w3 [⟨ust, 5⟩] _ (ust_only (by decide +kernel)))
def w5 : Wd := { w4 with owner := setOwner w4.owner coll tok2 house }
theorem chain5 : Chain code addr hon (w5, []) :=
  chain_step chain4 (Joint.Step.nft (S := S) .house w4 coll tok2 house [] bob trivial (by decide +kernel)
    (Or.inr ⟨rfl, out (by decide)⟩))

/-- token 1 is listed, token 2 is under auction -/
theorem keeps1 : (code .market).Keeps (w5.st .market) coll tok1 := by
  have h : ∃ a, r1.1.asks.get? (V2.askId V2.Sample.P coll tok1) = some a ∧ a.collection = coll ∧ a.tokenId = tok1 := by
    have : (r1.1.asks.get? (V2.askId V2.Sample.P coll tok1)).map (fun a => (a.collection, a.tokenId)) = some (coll, tok1) := by
      decide +kernel
    rw [Option.map_eq_some_iff] at this
    obtain ⟨a, ha, e⟩ := this
    injection e with e1 e2
    exact ⟨a, ha, e1, e2⟩
  obtain ⟨a, ha, h1, h2⟩ := h
  exact ⟨_, a, ha, h1, h2⟩
theorem keeps2 : (code .house).Keeps (w5.st .house) coll tok2 := by
  have : (r3.1.auctions.get? (coll, tok2)).isSome = true := by decide +kernel
  exact Option.isSome_iff_exists.mp this

end Sample

theorem market_ok : (Sample.code .market).Ok := by show 1 ≤ 100; decide

example := C139_alone Sample.chain3 .house
example := C139_kept Sample.chain5 trivial (i := .market) market_ok trivial Sample.keeps1
example := C139_kept Sample.chain5 trivial (i := .house) Auction.Sample.libOk trivial Sample.keeps2
example := C139_once Sample.chain5 trivial (i := .market) (j := .market) market_ok market_ok trivial Sample.keeps1 Sample.keeps1
example := C139_backed Sample.chain3 .house Auction.Sample.libOk Sample.ust
/-- alice cannot auction the token listed in v2, nor list it in v1 -/
example := C140_refused Sample.chain5 trivial (i := .market) (j := .house) (by decide) market_ok Auction.Sample.libOk trivial
  trivial Sample.keeps1 (sender := Sample.alice) (Sample.out (by decide)) (funds := [⟨Sample.ust, 5⟩])
  (.create Sample.coll Sample.tok1 ⟨Sample.ust, 100⟩ 60 none) (q := Sample.qw Sample.w5) (fun _ _ _ => rfl)
/-- nor bob sell the token under auction to a bidder in v2 -/
example := C140_refused Sample.chain5 trivial (i := .house) (j := .market) (by decide) Auction.Sample.libOk market_ok
  ⟨V2.Sample.hashInj, V2.Sample.prefixFree⟩ trivial Sample.keeps2 (sender := Sample.bob) (Sample.out (by decide)) (funds := [])
  (.v2Sell Sample.coll Sample.tok2 (V2.Sample.det 80)) (q := Sample.qw Sample.w5) (fun _ _ _ => rfl)

end Verif.Together

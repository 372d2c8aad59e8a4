/-
Marketplace v2: exactly which calls are accepted: C160.
-/
import Verif.V2.PropsLive
import Verif.V2.PropsFair

namespace Verif.V2
open Verif Spec

section
variable {p : Params} {me : Addr}

namespace Spec

/-- The account is not contradicted when it says that it owns the token. -/
def MayOwn (ctx : Ctx) (c : Addr) (t : Bytes) (x : Addr) : Prop := ∀ o, ctx.q.ownerOf c t = some o → o = x

/-- The collection does not say that trading starts later. -/
def Opened (ctx : Ctx) (c : Addr) : Prop := ∀ i t, ctx.q.collInfo c = some i → i.start = some t → t ≤ ctx.time

/-- A positive price in the denom of the collection. -/
def Priced (s : State) (c : Addr) (x : Coin) : Prop :=
  0 < x.amount ∧ (s.collectionDenoms.get? c).getD s.config.defaultDenom = x.denom

/-- Exactly the listing fee of some denom is attached. -/
def PaysListing (s : State) (funds : List Coin) : Prop := ∃ d n, funds = [⟨d, n⟩] ∧ 0 < n ∧ s.listingFees.get? d = some n

/-- The account administers the contract. -/
def Admin (ctx : Ctx) (x : Addr) : Prop := ctx.q.admin = some (some x)

/-- No open ask is for the token. -/
def Unlisted (s : State) (c t : Bytes) : Prop := ∀ id a, s.asks.get? id = some a → ¬ (a.collection = c ∧ a.tokenId = t)

/-- The order is an open bid on the token in this denom. -/
def OnToken (s : State) (c t : Bytes) (dn : Denom) (id : Bytes) (b : Bid) : Prop :=
  s.bids.get? id = some b ∧ b.collection = c ∧ b.tokenId = t ∧ b.details.price.denom = dn

/-- The order is an open bid on the collection in this denom. -/
def OnColl (s : State) (c : Bytes) (dn : Denom) (id : Bytes) (b : CBid) : Prop :=
  s.cbids.get? id = some b ∧ b.collection = c ∧ b.details.price.denom = dn

/-- No open offer reaches the price. -/
def NoOffer (s : State) (c t : Bytes) (x : Coin) : Prop :=
  (∀ id b, OnToken s c t x.denom id b → b.details.price.amount < x.amount) ∧
  (∀ id b, OnColl s c x.denom id b → b.details.price.amount < x.amount)

/-- The terms of the offer that a seller's price meets: the highest one that reaches it; a bid on the token goes before one on the
collection; of several equal ones of a kind the one with the greatest id. -/
inductive Meets (s : State) (c t : Bytes) (x : Coin) : Details → Prop
  | bid (id : Bytes) (b : Bid) (h : OnToken s c t x.denom id b) (hx : x.amount ≤ b.details.price.amount)
      (h1 : ∀ id' b', OnToken s c t x.denom id' b' → b'.details.price.amount < b.details.price.amount ∨
        b'.details.price.amount = b.details.price.amount ∧ bLe id' id = true)
      (h2 : ∀ id' b', OnColl s c x.denom id' b' → b'.details.price.amount ≤ b.details.price.amount) : Meets s c t x b.details
  | cbid (id : Bytes) (b : CBid) (h : OnColl s c x.denom id b) (hx : x.amount ≤ b.details.price.amount)
      (h1 : ∀ id' b', OnToken s c t x.denom id' b' → b'.details.price.amount < b.details.price.amount)
      (h2 : ∀ id' b', OnColl s c x.denom id' b' → b'.details.price.amount < b.details.price.amount ∨
        b'.details.price.amount = b.details.price.amount ∧ bLe id' id = true) : Meets s c t x b.details

/-- The ask of the token, if it is within the buyer's price. -/
def WithinPrice (s : State) (c t : Bytes) (x : Coin) (a : Ask) : Prop :=
  (∃ id, s.asks.get? id = some a) ∧ a.collection = c ∧ a.tokenId = t ∧ a.details.price.denom = x.denom ∧
  a.details.price.amount ≤ x.amount

/-- An open ask of the collection in this denom. -/
def InColl (s : State) (c : Bytes) (dn : Denom) (id : Bytes) (a : Ask) : Prop :=
  s.asks.get? id = some a ∧ a.collection = c ∧ a.details.price.denom = dn

/-- The cheapest ask of the collection, if it is within the buyer's price; of several equal ones that with the least id. -/
def CheapestWithin (s : State) (c : Bytes) (x : Coin) (a : Ask) : Prop :=
  ∃ id, InColl s c x.denom id a ∧ a.details.price.amount ≤ x.amount ∧
    ∀ id' a', InColl s c x.denom id' a' → a.details.price.amount < a'.details.price.amount ∨
      a.details.price.amount = a'.details.price.amount ∧ bLe id id' = true

/-- The registry answers, a royalty that it does not know goes to a well-formed address, and the price covers all fees. -/
def Divides (p : Params) (ctx : Ctx) (s : State) (c : Addr) (price : Coin) (maker taker : Option Addr) : Prop :=
  ctx.q.registry s.config.royaltyRegistry c ≠ none ∧
  (∀ i r, ctx.q.registry s.config.royaltyRegistry c = some (none, none) → ctx.q.collInfo c = some i → i.royalty = some r →
    p.valid r.recipient = true) ∧
  (((feeShares s.config maker taker ++ royaltyShare ctx.q s.config c).map (fun f => feeDue price.amount f.2)).sum ≤ price.amount)

/-- The attached coins cover the price. -/
def Covers (funds : List Coin) (x : Coin) : Prop := x.amount ≤ amountOf x.denom funds

/-- A seller's order at these terms goes through. -/
def SellsOne (p : Params) (ctx : Ctx) (s : State) (c t : Bytes) (d : Details) (rest : Prop) : Prop :=
  (∃ o, Meets s c t d.price o ∧ Divides p ctx s c o.price o.finder d.finder) ∨ NoOffer s c t d.price ∧ rest

/-- A buyer's order for a token goes through. -/
def BuysOne (p : Params) (ctx : Ctx) (s : State) (money : List Coin) (c t : Bytes) (d : Details) (rest : Prop) : Prop :=
  (∃ a, WithinPrice s c t d.price a ∧ Covers money a.details.price ∧ Divides p ctx s c a.details.price a.details.finder d.finder) ∨
  (∀ a, ¬ WithinPrice s c t d.price a) ∧ Covers money d.price ∧ rest

/-- A buyer's order for any token of the collection goes through; one more than the price must be a number of 128 bits. -/
def BuysAny (p : Params) (ctx : Ctx) (s : State) (money : List Coin) (c : Bytes) (d : Details) (rest : Prop) : Prop :=
  d.price.amount + 1 < 2^128 ∧
  ((∃ a, CheapestWithin s c d.price a ∧ Covers money a.details.price ∧
      Divides p ctx s c a.details.price a.details.finder d.finder) ∨
    (∀ a, ¬ CheapestWithin s c d.price a) ∧ Covers money d.price ∧ rest)

/-- The account can hand over the token for an offer at these terms. -/
def Hands (p : Params) (ctx : Ctx) (s : State) (sender : Addr) (c t : Bytes) (o d : Details) : Prop :=
  (∃ id a, s.asks.get? id = some a ∧ a.collection = c ∧ a.tokenId = t ∧ a.creator = sender ∧
    Divides p ctx s c o.price o.finder a.details.finder) ∨
  Unlisted s c t ∧ MayOwn ctx c t sender ∧ Divides p ctx s c o.price o.finder d.finder

/-- What is attached together with the coins of the order to be changed; it must fit into 128 bits. -/
def Adds (funds : List Coin) (x : Coin) : Prop := amountOf x.denom funds + x.amount < 2^128

/-- The calls that are accepted. -/
def Accepted (p : Params) (ctx : Ctx) (s : State) (sender : Addr) (funds : List Coin) : Exec → Prop
  | .updateConfig c => Admin ctx sender ∧ p.valid c.feeManager = true ∧ p.valid c.royaltyRegistry = true ∧
    c.protocolFeeBps < 10000 ∧ c.makerRewardBps + c.takerRewardBps < 10000
  | .updateCollectionDenom c _ => Admin ctx sender ∧ p.valid c = true
  | .setListingFee _ => Admin ctx sender
  | .removeListingFee _ => Admin ctx sender
  | .setAsk c t d => p.valid c = true ∧ ValidDetails p d ∧ MayOwn ctx c t sender ∧ Opened ctx c ∧ Priced s c d.price ∧
    PaysListing s funds ∧ SellsOne p ctx s c t d (Unlisted s c t)
  | .sellNft c t d => p.valid c = true ∧ ValidDetails p d ∧ MayOwn ctx c t sender ∧ Opened ctx c ∧ Priced s c d.price ∧
    PaysListing s funds ∧ SellsOne p ctx s c t d False
  | .updateAsk id d => ValidDetails p d ∧ funds = [] ∧ ∃ a, s.asks.get? id = some a ∧ a.creator = sender ∧
    Priced s a.collection d.price ∧ SellsOne p ctx s a.collection a.tokenId d True
  | .removeAsk id => funds = [] ∧ ∃ a, s.asks.get? id = some a ∧ a.creator = sender
  | .acceptAsk id d => ValidDetails p d ∧ ∃ a, s.asks.get? id = some a ∧ a.details.price.denom = d.price.denom ∧
    a.details.price.amount ≤ d.price.amount ∧ Covers funds a.details.price ∧
    Divides p ctx s a.collection a.details.price a.details.finder d.finder
  | .setBid c t d => p.valid c = true ∧ ValidDetails p d ∧ Opened ctx c ∧ Priced s c d.price ∧
    BuysOne p ctx s funds c t d True
  | .buySpecificNft c t d => p.valid c = true ∧ ValidDetails p d ∧ Opened ctx c ∧ Priced s c d.price ∧
    BuysOne p ctx s funds c t d False
  | .updateBid id d => ValidDetails p d ∧ ∃ b, s.bids.get? id = some b ∧ b.creator = sender ∧
    Priced s b.collection d.price ∧ Adds funds b.details.price ∧
    BuysOne p ctx s (b.details.price :: funds) b.collection b.tokenId d True
  | .removeBid id => funds = [] ∧ ∃ b, s.bids.get? id = some b ∧ b.creator = sender
  | .acceptBid id d => ValidDetails p d ∧ ∃ b, s.bids.get? id = some b ∧ b.details.price.denom = d.price.denom ∧
    d.price.amount ≤ b.details.price.amount ∧ Hands p ctx s sender b.collection b.tokenId b.details d
  | .setCollectionBid c d => p.valid c = true ∧ ValidDetails p d ∧ Opened ctx c ∧ Priced s c d.price ∧
    BuysAny p ctx s funds c d True
  | .buyCollectionNft c d => p.valid c = true ∧ ValidDetails p d ∧ Opened ctx c ∧ Priced s c d.price ∧
    BuysAny p ctx s funds c d False
  | .updateCollectionBid id d => ValidDetails p d ∧ ∃ b, s.cbids.get? id = some b ∧ b.creator = sender ∧
    Priced s b.collection d.price ∧ Adds funds b.details.price ∧ BuysAny p ctx s (b.details.price :: funds) b.collection d True
  | .removeCollectionBid id => funds = [] ∧ ∃ b, s.cbids.get? id = some b ∧ b.creator = sender
  | .acceptCollectionBid id t d => ValidDetails p d ∧ ∃ b, s.cbids.get? id = some b ∧ b.details.price.denom = d.price.denom ∧
    d.price.amount ≤ b.details.price.amount ∧ Hands p ctx s sender b.collection t b.details d

/-- Amounts have 128 bits. -/
structure Fits (s : State) (funds : List Coin) : Prop where
  funds : ∀ d, amountOf d funds < 2^128
  asks : ∀ id a, s.asks.get? id = some a → a.details.price.amount < 2^128
  bids : ∀ id b, s.bids.get? id = some b → b.details.price.amount < 2^128
  cbids : ∀ id b, s.cbids.get? id = some b → b.details.price.amount < 2^128
end Spec

/-! ### attached coins -/

theorem amountOf_mem {c : Coin} : ∀ {cs : List Coin}, c ∈ cs → c.amount ≤ amountOf c.denom cs
  | x :: xs, h => by
    rw [amountOf]
    cases List.mem_cons.mp h with
    | inl e => subst e; simp [Coin.inDenom]
    | inr h => have := amountOf_mem h; omega

theorem merge_succeeds : ∀ {cs : List Coin}, (∀ d, amountOf d cs < 2^128) → ∃ r, mergeDups cs = .ok r
  | [], _ => ⟨_, rfl⟩
  | c :: cs, h => by
    obtain ⟨r, hr⟩ := merge_succeeds (cs := cs) (fun d => by have := h d; rw [amountOf] at this; omega)
    rw [mergeDups, hr, ok_bind]
    cases r with
    | nil => exact ⟨_, rfl⟩
    | cons e es =>
      simp only
      by_cases he : c.denom = e.denom
      · rw [if_pos he]
        have h1 := (mergeDups_ok hr).1 c.denom
        have h2 := h c.denom
        rw [amountOf] at h1 h2
        have h3 : e.inDenom c.denom = e.amount := by unfold Coin.inDenom; rw [if_pos he.symm]
        have h4 : c.inDenom c.denom = c.amount := by unfold Coin.inDenom; rw [if_pos rfl]
        rw [u128_le (by unfold U128MAX; omega)]
        exact ⟨_, rfl⟩
      · rw [if_neg he]; exact ⟨_, rfl⟩

/-- No denom occurs twice. -/
def Once (cs : List Coin) : Prop := cs.Pairwise (fun a b => a.denom ≠ b.denom)

theorem merge_sorted : ∀ {cs r : List Coin}, cs.Pairwise (fun a b => denomLe a b = true) → mergeDups cs = .ok r →
    r.Pairwise (fun a b => denomLe a b = true ∧ a.denom ≠ b.denom) ∧ r.head?.map Coin.denom = cs.head?.map Coin.denom ∧
    ∀ x ∈ r, ∃ y ∈ cs, y.denom = x.denom
  | [], r, _, h => by cases h; simp
  | c :: cs, r, hs, h => by
    rw [mergeDups, bind_ok] at h
    obtain ⟨r', hr', h⟩ := h
    obtain ⟨hc, hs'⟩ := List.pairwise_cons.mp hs
    obtain ⟨h1, h2, h3⟩ := merge_sorted hs' hr'
    cases r' with
    | nil => cases h; simp
    | cons e es =>
      simp only at h
      obtain ⟨he1, he2⟩ := List.pairwise_cons.mp h1
      split at h
      case isTrue he =>
        rw [bind_ok] at h
        obtain ⟨n, _, h⟩ := h
        cases h
        refine ⟨List.pairwise_cons.mpr ⟨?_, he2⟩, rfl, ?_⟩
        · intro x hx
          have := he1 x hx
          unfold denomLe at this ⊢
          simp only
          rw [he]; exact this
        · intro x hx
          cases List.mem_cons.mp hx with
          | inl e => subst e; exact ⟨c, by simp, rfl⟩
          | inr hx =>
            obtain ⟨y, hy, e⟩ := h3 x (List.mem_cons_of_mem _ hx)
            exact ⟨y, List.mem_cons_of_mem _ hy, e⟩
      case isFalse he =>
        cases h
        have hce : denomLe c e = true := by
          obtain ⟨y, hy, e'⟩ := h3 e (by simp)
          have := hc y hy
          unfold denomLe at this ⊢
          rw [← e']; exact this
        refine ⟨List.pairwise_cons.mpr ⟨?_, h1⟩, rfl, ?_⟩
        · intro x hx
          cases List.mem_cons.mp hx with
          | inl e' => subst e'; exact ⟨hce, he⟩
          | inr hx =>
            obtain ⟨g1, g2⟩ := he1 x hx
            unfold denomLe at hce g1 ⊢
            refine ⟨bLe_trans hce g1, ?_⟩
            intro e'
            rw [← e'] at g1
            exact he (bLe_antisymm hce g1)
        · intro x hx
          cases List.mem_cons.mp hx with
          | inl e' => subst e'; exact ⟨x, by simp, rfl⟩
          | inr hx =>
            obtain ⟨y, hy, e'⟩ := h3 x hx
            exact ⟨y, List.mem_cons_of_mem _ hy, e'⟩

theorem normal {funds : List Coin} (h : ∀ d, amountOf d funds < 2^128) :
    ∃ r, nbNormalize funds = .ok r ∧ Once r ∧ ∀ d, amountOf d r = amountOf d funds := by
  obtain ⟨r, hr⟩ := merge_succeeds (cs := sortBy denomLe (funds.filter (fun c => decide (c.amount ≠ 0)))) (fun d => by
    rw [amountOf_perm (sortBy_perm _), amountOf_filter_nonzero]; exact h d)
  refine ⟨r, hr, ?_, (nbNormalize_ok hr).1⟩
  have hs := sortBy_pairwise (le := denomLe) (fun a b => bLe_total a.denom b.denom) (fun a b c => bLe_trans) (funds.filter (fun c => decide (c.amount ≠ 0)))
  exact (merge_sorted hs hr).1.imp (fun h => h.2)

theorem once_none {x : Denom} : ∀ {cs : List Coin}, (∀ y ∈ cs, x ≠ y.denom) → amountOf x cs = 0
  | [], _ => rfl
  | c :: cs, h => by
    rw [amountOf, once_none (fun y hy => h y (List.mem_cons_of_mem _ hy))]
    have := h c (by simp)
    unfold Coin.inDenom
    rw [if_neg (fun e => this e.symm)]

theorem sub_iff {x : Coin} (hx : 0 < x.amount) : ∀ {cs : List Coin}, Once cs →
    ((∃ r, nbSub cs x = .ok r) ↔ x.amount ≤ amountOf x.denom cs)
  | [], _ => by
    constructor
    · rintro ⟨r, h⟩; cases h
    · intro h; rw [amountOf] at h; omega
  | c :: cs, ho => by
    obtain ⟨hc, hs⟩ := List.pairwise_cons.mp ho
    unfold nbSub
    rw [amountOf]
    by_cases e : c.denom = x.denom
    · rw [if_pos e, once_none (fun y hy => by rw [← e]; exact hc y hy)]
      have : c.inDenom x.denom = c.amount := by unfold Coin.inDenom; rw [if_pos e]
      rw [this]
      constructor
      · rintro ⟨r, h⟩
        rw [bind_ok] at h
        obtain ⟨n, hn, _⟩ := h
        rw [subChk_ok] at hn; omega
      · intro h
        rw [subChk_le (by omega)]; exact ⟨_, rfl⟩
    · rw [if_neg e]
      have : c.inDenom x.denom = 0 := by unfold Coin.inDenom; rw [if_neg e]
      rw [this, Nat.zero_add, ← sub_iff hx hs]
      constructor
      · rintro ⟨r, h⟩
        rw [bind_ok] at h
        obtain ⟨n, hn, _⟩ := h
        exact ⟨n, hn⟩
      · rintro ⟨r, h⟩
        rw [h]; exact ⟨_, rfl⟩

theorem add_iff {x : Coin} (hx : x.amount < 2^128) : ∀ {cs : List Coin}, Once cs →
    ((∃ r, nbAdd cs x = .ok r) ↔ amountOf x.denom cs + x.amount < 2^128)
  | [], _ => ⟨fun _ => by rw [amountOf]; omega, fun _ => ⟨_, rfl⟩⟩
  | c :: cs, ho => by
    obtain ⟨hc, hs⟩ := List.pairwise_cons.mp ho
    unfold nbAdd
    rw [amountOf]
    by_cases e : c.denom = x.denom
    · rw [if_pos e, once_none (fun y hy => by rw [← e]; exact hc y hy)]
      have : c.inDenom x.denom = c.amount := by unfold Coin.inDenom; rw [if_pos e]
      rw [this]
      constructor
      · rintro ⟨r, h⟩
        rw [bind_ok] at h
        obtain ⟨n, hn, _⟩ := h
        rw [u128_ok] at hn; unfold U128MAX at hn; omega
      · intro h
        rw [u128_le (by unfold U128MAX; omega)]; exact ⟨_, rfl⟩
    · rw [if_neg e]
      have : c.inDenom x.denom = 0 := by unfold Coin.inDenom; rw [if_neg e]
      rw [this, Nat.zero_add]
      by_cases ha : cs.any (fun y => decide (y.denom = x.denom)) = true
      · rw [if_pos ha, ← add_iff hx hs]
        constructor
        · rintro ⟨r, h⟩
          rw [bind_ok] at h
          obtain ⟨n, hn, _⟩ := h
          exact ⟨n, hn⟩
        · rintro ⟨r, h⟩
          rw [h]; exact ⟨_, rfl⟩
      · rw [if_neg ha, once_none]
        · exact ⟨fun _ => by omega, fun _ => ⟨_, rfl⟩⟩
        · intro y hy e'
          apply ha
          rw [List.any_eq_true]
          exact ⟨y, hy, by simp [e']⟩

theorem add_once {x : Coin} : ∀ {cs r : List Coin}, Once cs → nbAdd cs x = .ok r →
    Once r ∧ ∀ y ∈ r, y.denom = x.denom ∨ ∃ z ∈ cs, z.denom = y.denom
  | [], r, _, h => by
    cases h
    exact ⟨List.pairwise_cons.mpr ⟨by simp, .nil⟩, by simp⟩
  | c :: cs, r, ho, h => by
    obtain ⟨hc, hs⟩ := List.pairwise_cons.mp ho
    unfold nbAdd at h
    split at h
    case isTrue e =>
      rw [bind_ok] at h
      obtain ⟨n, _, h⟩ := h
      cases h
      refine ⟨List.pairwise_cons.mpr ⟨hc, hs⟩, ?_⟩
      intro y hy
      cases List.mem_cons.mp hy with
      | inl e' => subst e'; exact .inl e
      | inr hy => exact .inr ⟨y, List.mem_cons_of_mem _ hy, rfl⟩
    case isFalse e =>
      split at h
      case isTrue ha =>
        rw [bind_ok] at h
        obtain ⟨r', hr', h⟩ := h
        cases h
        obtain ⟨h1, h2⟩ := add_once hs hr'
        refine ⟨List.pairwise_cons.mpr ⟨?_, h1⟩, ?_⟩
        · intro y hy
          rcases h2 y hy with h3 | ⟨z, hz, h3⟩
          · rw [h3]; exact e
          · rw [← h3]; exact hc z hz
        · intro y hy
          cases List.mem_cons.mp hy with
          | inl e' => subst e'; exact .inr ⟨y, by simp, rfl⟩
          | inr hy =>
            rcases h2 y hy with h3 | ⟨z, hz, h3⟩
            · exact .inl h3
            · exact .inr ⟨z, List.mem_cons_of_mem _ hz, h3⟩
      case isFalse ha =>
        cases h
        have hperm := insertBy_perm (le := denomLe) x (c :: cs)
        constructor
        · refine (hperm.pairwise_iff (R := fun a b : Coin => a.denom ≠ b.denom) (fun h => h.symm)).mpr ?_
          refine List.pairwise_cons.mpr ⟨?_, ho⟩
          intro y hy e'
          cases List.mem_cons.mp hy with
          | inl e2 => subst e2; exact e e'.symm
          | inr hy =>
            apply ha
            rw [List.any_eq_true]
            exact ⟨y, hy, by simp [e']⟩
        · intro y hy
          cases List.mem_cons.mp (hperm.mem_iff.mp hy) with
          | inl e' => subst e'; exact .inl rfl
          | inr hy => exact .inr ⟨y, hy, rfl⟩

theorem take_iff {cs : List Coin} {x : Coin} (hx : 0 < x.amount) (ho : Once cs) {money : List Coin}
    (hm : ∀ d, amountOf d cs = amountOf d money) : (∃ r, takePrice cs x = .ok r) ↔ Covers money x := by
  simp only [takePrice_ok]
  rw [sub_iff hx ho, hm]; rfl

/-! ### settling -/

theorem dues_gen (g : Nat → Nat) (hg : g 0 = 0) : ∀ fs : List (Addr × Nat),
    (((fs.filter (fun f => decide (f.2 ≠ 0))).map (fun f => (f.1, g f.2))).map Prod.snd).sum = (fs.map (fun f => g f.2)).sum
  | [] => rfl
  | f :: fs => by
    have ih := dues_gen g hg fs
    by_cases h : f.2 = 0
    · rw [List.filter_cons_of_neg (by simp [h]), ih, List.map_cons, List.sum_cons, h, hg, Nat.zero_add]
    · rw [List.filter_cons_of_pos (by simp [h]), List.map_cons, List.map_cons, List.map_cons, List.sum_cons, List.sum_cons, ih]

theorem feeDue_none (price : Nat) : feeDue price 0 = 0 := by
  unfold feeDue
  rw [Nat.mul_zero, Nat.zero_add]

theorem dues_all (price : Nat) (fs : List (Addr × Nat)) :
    (((fs.filter (fun f => decide (f.2 ≠ 0))).map (fun f => (f.1, feeDue price f.2))).map Prod.snd).sum =
      (fs.map (fun f => feeDue price f.2)).sum := dues_gen (feeDue price) (feeDue_none price) fs

theorem split_iff {price : Nat} {seller : Addr} {fs : List (Addr × Nat)} :
    (∃ pays, split price seller fs = some pays) ↔ (fs.map (fun f => feeDue price f.2)).sum ≤ price := by
  unfold split
  simp only [dues_all]
  split
  · constructor
    · rintro ⟨_, h⟩; cases h
    · intro h; omega
  · exact ⟨fun _ => by omega, fun _ => ⟨_, rfl⟩⟩

theorem fetch_needs {ctx : Ctx} {c : Config} {coll : Addr} {r : Option Royalty × List Msg}
    (h : fetchOrSetRoyalties ctx p.valid c.royaltyRegistry coll = .ok r) : ctx.q.registry c.royaltyRegistry coll ≠ none ∧
    ∀ i r, ctx.q.registry c.royaltyRegistry coll = some (none, none) → ctx.q.collInfo coll = some i →
      i.royalty = some r → p.valid r.recipient = true := by
  unfold fetchOrSetRoyalties fetchRoyaltyEntry at h
  constructor
  · intro e; rw [e] at h; cases h
  · intro i y h1 h2 h3
    rw [h1] at h
    simp only [ok_bind, h2, h3] at h
    split at h
    · assumption
    · cases h

theorem settle_iff {ctx : Ctx} {s t : State} (hw : WF p s) (hc : t.config = s.config) {a : Ask} {mb : MatchingBid} {abb : Bool}
    (hx : (saleTerms a mb abb).1.amount < 2^128) {resp : List Msg} :
    (∃ r, finalizeSale p ctx t a t.config mb abb resp = .ok r) ↔
      Divides p ctx s a.collection (saleTerms a mb abb).1 (saleTerms a mb abb).2.1 (saleTerms a mb abb).2.2 := by
  constructor
  · rintro ⟨r, h⟩
    rw [hc] at h
    obtain ⟨x, _⟩ := finalizeSale_ok p h
    obtain ⟨h1, h2⟩ := fetch_needs x.hroy
    refine ⟨h1, h2, ?_⟩
    rw [← split_iff (seller := a.assetRecipient)]
    obtain ⟨h3, _⟩ := buildPayments_split x.hpay
    refine ⟨_, Eq.trans ?_ h3⟩
    apply split_congr
    rw [saleFees_spec hw.cfg.1 hw.cfg.2 x.hpf x.hfees]
    unfold royaltyShare
    rw [← fetchOrSet_royalty x.hroy]
    cases x.roy.1 <;> rfl
  · rintro ⟨h1, h2, h3⟩
    obtain ⟨pays, hp⟩ := (split_iff (seller := a.assetRecipient)).mpr h3
    exact finalize_succeeds hw hc ⟨hx, h1, h2, hp⟩ resp

/-! ### matching -/

theorem meets_unique {s : State} {c t : Bytes} {x : Coin} {d e : Details} (h : Meets s c t x d) (g : Meets s c t x e) : d = e := by
  cases h with
  | bid id b h1 hx h2 h3 =>
    cases g with
    | bid id' b' g1 gx g2 g3 =>
      have e : id = id' := by
        rcases h2 _ _ g1 with h | ⟨h, k1⟩
        · rcases g2 _ _ h1 with g | ⟨g, _⟩ <;> omega
        · rcases g2 _ _ h1 with g | ⟨_, k2⟩
          · omega
          · exact bLe_antisymm k2 k1
      subst e
      have := h1.1.symm.trans g1.1
      cases this; rfl
    | cbid id' b' g1 gx g2 g3 => have := h3 _ _ g1; have := g2 _ _ h1; omega
  | cbid id b h1 hx h2 h3 =>
    cases g with
    | bid id' b' g1 gx g2 g3 => have := g3 _ _ h1; have := h2 _ _ g1; omega
    | cbid id' b' g1 gx g2 g3 =>
      have e : id = id' := by
        rcases h3 _ _ g1 with h | ⟨h, k1⟩
        · rcases g3 _ _ h1 with g | ⟨g, _⟩ <;> omega
        · rcases g3 _ _ h1 with g | ⟨_, k2⟩
          · omega
          · exact bLe_antisymm k2 k1
      subst e
      have := h1.1.symm.trans g1.1
      cases this; rfl

theorem meets_not {s : State} {c t : Bytes} {x : Coin} {d : Details} (h : Meets s c t x d) (g : NoOffer s c t x) : False := by
  cases h with
  | bid id b h1 hx => have := g.1 _ _ h1; omega
  | cbid id b h1 hx => have := g.2 _ _ h1; omega

theorem index_eq (hns : NoSlash p) {s : State} (hw : WF p s) {c t : Bytes} (hv : p.valid c = true) {id : Bytes} {b : Bid}
    (hb : s.bids.get? id = some b) (h : indexStr b.collection b.tokenId = indexStr c t) : b.collection = c ∧ b.tokenId = t :=
  indexStr_inj (hns _ (hw.bid hb).2.1) (hns _ hv) h

theorem match_none (hlim : 1 ≤ p.maxLimit) {s : State} {a : Ask} (h : a.matchWithBid p s = none) :
    NoOffer s a.collection a.tokenId a.details.price := by
  obtain ⟨h1, h2⟩ := matchWithBid_none hlim h
  refine ⟨?_, ?_⟩
  · rintro id b ⟨hb, hc, ht, hd⟩; exact h1 id b hb (by rw [hc, ht]) hd
  · rintro id b ⟨hb, hc, hd⟩; exact h2 id b hb hc hd

theorem match_some (hlim : 1 ≤ p.maxLimit) (hns : NoSlash p) {s : State} (hw : WF p s) {a : Ask} (hv : p.valid a.collection = true)
    {mb : MatchingBid} (h : a.matchWithBid p s = some mb) : Meets s a.collection a.tokenId a.details.price mb.details := by
  cases mb with
  | bid b =>
    obtain ⟨_, h2, h3, h4, h5, h6⟩ := matchWithBid_bid hlim h
    obtain ⟨id, hb, ht⟩ := matchWithBid_tie hlim h
    obtain ⟨e1, e2⟩ := index_eq hns hw hv hb h2
    refine .bid id b ⟨hb, e1, e2, h3⟩ h4 ?_ ?_
    · rintro id' b' ⟨hb', k1, k2, k3⟩
      have := h5 id' b' hb' (by rw [k1, k2]) k3
      by_cases e : b'.details.price.amount = b.details.price.amount
      · exact .inr ⟨e, ht id' b' hb' (by rw [k1, k2]) k3 e⟩
      · exact .inl (by omega)
    · rintro id' b' ⟨hb', k1, k2⟩; exact h6 id' b' hb' k1 k2
  | cbid b =>
    obtain ⟨_, h2, h3, h4, h5, h6⟩ := matchWithBid_cbid hlim h
    obtain ⟨id, hb, ht⟩ := matchWithBid_ctie hlim h
    refine .cbid id b ⟨hb, h2, h3⟩ h4 ?_ ?_
    · rintro id' b' ⟨hb', k1, k2, k3⟩; exact h5 id' b' hb' (by rw [k1, k2]) k3
    · rintro id' b' ⟨hb', k1, k2⟩
      have := h6 id' b' hb' k1 k2
      by_cases e : b'.details.price.amount = b.details.price.amount
      · exact .inr ⟨e, ht id' b' hb' k1 k2 e⟩
      · exact .inl (by omega)

theorem at_id (hinj : HashInj p) (hpf : PrefixFree p) {s : State} (hw : WF p s) {c t : Bytes} (hv : p.valid c = true) {a : Ask} :
    s.asks.get? (askId p c t) = some a ↔ (∃ id, s.asks.get? id = some a) ∧ a.collection = c ∧ a.tokenId = t := by
  constructor
  · intro h
    have h1 := hw.ask h
    obtain ⟨e1, e2⟩ := askId_inj hinj hpf hv h1.2.2.1 h1.2.1
    exact ⟨⟨_, h⟩, e1.symm, e2.symm⟩
  · rintro ⟨⟨id, h⟩, rfl, rfl⟩
    rw [← (hw.ask h).2.1]; exact h

theorem unlisted_iff (hinj : HashInj p) (hpf : PrefixFree p) {s : State} (hw : WF p s) {c t : Bytes} (hv : p.valid c = true) :
    s.asks.get? (askId p c t) = none ↔ Unlisted s c t := by
  constructor
  · rintro h id a ha hc
    rw [(at_id hinj hpf hw hv).mpr ⟨⟨id, ha⟩, hc⟩] at h; cases h
  · intro h
    cases hg : s.asks.get? (askId p c t) with
    | none => rfl
    | some a =>
      obtain ⟨⟨id, h1⟩, h2⟩ := (at_id hinj hpf hw hv).mp hg
      exact absurd h2 (h id a h1)

theorem bid_match (hinj : HashInj p) (hpf : PrefixFree p) {s : State} (hw : WF p s) {b : Bid} (hv : p.valid b.collection = true) {a : Ask} :
    b.matchWithAsk p s = some a ↔ WithinPrice s b.collection b.tokenId b.details.price a := by
  unfold Bid.matchWithAsk WithinPrice
  constructor
  · intro h
    split at h
    case h_1 a' ha =>
      split at h
      case isTrue hc =>
        cases h
        obtain ⟨h1, h2⟩ := hasCoins_single.mp hc
        obtain ⟨k1, k2, k3⟩ := (at_id hinj hpf hw hv).mp ha
        exact ⟨k1, k2, k3, h1.symm, h2⟩
      case isFalse => cases h
    case h_2 => cases h
  · rintro ⟨h1, h2, h3, h4, h5⟩
    rw [(at_id hinj hpf hw hv).mpr ⟨h1, h2, h3⟩]
    simp only
    rw [if_pos (hasCoins_single.mpr ⟨h4.symm, h5⟩)]

theorem cbid_match (hlim : 1 ≤ p.maxLimit) {s : State} {b : CBid} (hb : b.details.price.amount + 1 < 2^128) :
    ∃ o, b.matchWithAsk p s = .ok o ∧ ∀ a, o = some a ↔ CheapestWithin s b.collection b.details.price a := by
  have hok : ∃ o, b.matchWithAsk p s = .ok o := by
    unfold CBid.matchWithAsk
    rw [u128_le (by unfold U128MAX; omega)]; exact ⟨_, rfl⟩
  obtain ⟨o, ho⟩ := hok
  refine ⟨o, ho, ?_⟩
  have some_is : ∀ a, o = some a → CheapestWithin s b.collection b.details.price a := by
    rintro a rfl
    obtain ⟨_, h2, h3, h4, h5⟩ := cbidMatch_some hlim ho
    obtain ⟨id, g1, _, _, g2⟩ := ask_tie hlim ho
    refine ⟨id, ⟨g1, h2, h3⟩, h4, ?_⟩
    rintro id' a' ⟨k1, k2, k3⟩
    have := h5 id' a' k1 k2 k3
    by_cases e : a'.details.price.amount = a.details.price.amount
    · exact .inr ⟨e.symm, g2 id' a' k1 k2 k3 e⟩
    · exact .inl (by omega)
  intro a
  refine ⟨some_is a, ?_⟩
  rintro ⟨id, h1, h2, h3⟩
  cases o with
  | none => have := cbidMatch_none hlim ho id a h1.1 h1.2.1 h1.2.2; omega
  | some a' =>
    obtain ⟨id', g1, g2, g3⟩ := some_is a' rfl
    have e : id = id' := by
      rcases h3 _ _ g1 with h | ⟨h, k1⟩
      · rcases g3 _ _ h1 with g | ⟨g, _⟩ <;> omega
      · rcases g3 _ _ h1 with g | ⟨_, k2⟩
        · omega
        · exact bLe_antisymm k1 k2
    subst e
    rw [← g1.1, h1.1]

/-! ### the checks -/

theorem ok_then {α β : Type} {x : Res α} {f : α → Res β} : (∃ r, (x >>= f) = .ok r) ↔ ∃ y, x = .ok y ∧ ∃ r, f y = .ok r := by
  cases x with
  | error e =>
    constructor
    · rintro ⟨r, h⟩; cases h
    · rintro ⟨r, h, _⟩; cases h
  | ok y =>
    refine ⟨fun h => ⟨y, rfl, h⟩, ?_⟩
    rintro ⟨z, h, h2⟩
    cases h
    exact h2

theorem unit_then {β : Type} {x : Res Unit} {P : Prop} (h : x = .ok () ↔ P) {f : Unit → Res β} :
    (∃ r, (x >>= f) = .ok r) ↔ P ∧ ∃ r, f () = .ok r := by
  rw [ok_then]
  constructor
  · rintro ⟨_, h1, h2⟩; exact ⟨h.mp h1, h2⟩
  · rintro ⟨h1, h2⟩; exact ⟨(), h.mpr h1, h2⟩

theorem valid_then {β : Type} {a : Bytes} {f : Addr → Res β} :
    (∃ r, (addrValidate p a >>= f) = .ok r) ↔ p.valid a = true ∧ ∃ r, f a = .ok r := by
  rw [ok_then]
  constructor
  · rintro ⟨y, h1, h2⟩; obtain ⟨h3, rfl⟩ := addrValidate_ok.mp h1; exact ⟨h3, h2⟩
  · rintro ⟨h1, h2⟩; exact ⟨a, addrValidate_ok.mpr ⟨h1, rfl⟩, h2⟩

theorem details_then {β : Type} {d : Details} {f : Details → Res β} :
    (∃ r, (d.strToAddr p >>= f) = .ok r) ↔ ValidDetails p d ∧ ∃ r, f d = .ok r := by
  rw [ok_then]
  constructor
  · rintro ⟨y, h1, h2⟩; obtain ⟨h3, rfl⟩ := strToAddr_ok.mp h1; exact ⟨h3, h2⟩
  · rintro ⟨h1, h2⟩; exact ⟨d, strToAddr_ok.mpr ⟨h1, rfl⟩, h2⟩

theorem found_then {α β : Type} {o : Option α} {e : Err} {f : α → Res β} :
    (∃ r, (orErr o e >>= f) = .ok r) ↔ ∃ y, o = some y ∧ ∃ r, f y = .ok r := by
  rw [ok_then]; simp only [orErr_ok]

theorem ensure_then {β : Type} {P : Prop} [Decidable P] {e : Err} {f : Unit → Res β} :
    (∃ r, (ensure P e >>= f) = .ok r) ↔ P ∧ ∃ r, f () = .ok r := unit_then ensure_ok

theorem ok_done {β : Type} {y : β} : (∃ r, (.ok y : Res β) = .ok r) ↔ True := ⟨fun _ => trivial, fun _ => ⟨y, rfl⟩⟩

theorem mayOwn_iff {ctx : Ctx} {sender coll tok : Bytes} : onlyOwner ctx sender coll tok = .ok () ↔ MayOwn ctx coll tok sender := by
  unfold onlyOwner MayOwn
  cases ctx.q.ownerOf coll tok with
  | none => simp
  | some o => simp

theorem opened_iff {ctx : Ctx} {coll : Addr} : onlyTradable ctx coll = .ok () ↔ Opened ctx coll := by
  unfold onlyTradable Opened
  cases ctx.q.collInfo coll with
  | none => simp
  | some i =>
    simp only
    cases hs : i.start with
    | none => simp; intro j t e; subst e; rw [hs]; simp
    | some t =>
      simp only
      split
      · constructor
        · intro h; cases h
        · intro h; have := h i t rfl hs; omega
      · refine ⟨fun _ => ?_, fun _ => rfl⟩
        intro j u e1 e2
        cases e1
        rw [hs] at e2; cases e2; omega

theorem priced_iff {s : State} {coll : Addr} {x : Coin} : onlyValidPrice s s.config coll x = .ok () ↔ Priced s coll x :=
  onlyValidPrice_ok

theorem admin_iff {ctx : Ctx} {sender : Addr} : onlyContractAdmin ctx sender = .ok () ↔ Admin ctx sender := by
  unfold onlyContractAdmin Admin
  cases ctx.q.admin with
  | none => simp
  | some a =>
    cases a with
    | none => simp
    | some a =>
      simp only [ensure_ok, Option.some.injEq]
      exact eq_comm

theorem listing_then {β : Type} {s : State} {funds : List Coin} {f : Coin → Res β} (hf : ∀ x y, (∃ r, f x = .ok r) ↔ ∃ r, f y = .ok r) (z : Coin) :
    (∃ r, (oneCoin funds >>= fun payment => orErr (s.listingFees.get? payment.denom) .invalidInput >>= fun fee =>
      ensure (payment.amount = fee) .invalidInput >>= fun _ => f payment) = .ok r) ↔ PaysListing s funds ∧ ∃ r, f z = .ok r := by
  rw [ok_then]
  simp only [oneCoin_ok, found_then, ensure_then]
  constructor
  · rintro ⟨⟨d, n⟩, ⟨h1, h2⟩, fee, h3, h4, h5⟩
    simp only at h4
    subst h4
    exact ⟨⟨d, n, h1, h2, h3⟩, (hf _ _).mp h5⟩
  · rintro ⟨⟨d, n, h1, h2, h3⟩, h5⟩
    exact ⟨⟨d, n⟩, ⟨h1, h2⟩, n, h3, rfl, (hf _ _).mp h5⟩

/-! ### the three ways to trade -/

variable {ctx : Ctx} {s : State} {funds : List Coin}

theorem Spec.Fits.meets (hf : Fits s funds) {c t : Bytes} {x : Coin} {d : Details} (h : Meets s c t x d) : d.price.amount < 2^128 := by
  cases h with
  | bid id b h1 => exact hf.bids id b h1.1
  | cbid id b h1 => exact hf.cbids id b h1.1

theorem sell_core (hlim : 1 ≤ p.maxLimit) (hns : NoSlash p) (hw : WF p s) (hf : Fits s funds) {a : Ask}
    (hv : p.valid a.collection = true) {resp : List Msg} {els : Out} {rest : Prop} (hrest : (∃ r, els = .ok r) ↔ rest) :
    (∃ r, (match a.matchWithBid p s with
      | some mb => finalizeSale p ctx s a s.config mb false resp
      | none => els) = .ok r) ↔ SellsOne p ctx s a.collection a.tokenId a.details rest := by
  cases hm : a.matchWithBid p s with
  | none =>
    have h := match_none hlim hm
    simp only
    rw [hrest]
    constructor
    · intro hr; exact .inr ⟨h, hr⟩
    · rintro (⟨o, h1, _⟩ | ⟨_, h1⟩)
      · exact (meets_not h1 h).elim
      · exact h1
  | some mb =>
    have h := match_some hlim hns hw hv hm
    simp only
    rw [settle_iff (a := a) (mb := mb) (abb := false) hw rfl (hf.meets h)]
    constructor
    · intro hd; exact .inl ⟨_, h, hd⟩
    · rintro (⟨o, h1, h2⟩ | ⟨h1, _⟩)
      · obtain rfl := meets_unique h h1
        exact h2
      · exact (meets_not h h1).elim

theorem refund_done {x : Out} {sender : Addr} {left : List Coin} :
    (∃ r, (x >>= fun r => (.ok (r.1, refund sender left r.2) : Out)) = .ok r) ↔ ∃ r, x = .ok r := by
  rw [ok_then]
  constructor
  · rintro ⟨y, h, _⟩; exact ⟨y, h⟩
  · rintro ⟨y, h⟩; exact ⟨y, h, _, rfl⟩

theorem take_then {β : Type} {cs : List Coin} {x : Coin} (hx : 0 < x.amount) (ho : Once cs) {money : List Coin}
    (hm : ∀ d, amountOf d cs = amountOf d money) {f : List Coin → Res β} {Q : Prop} (hQ : ∀ l, (∃ r, f l = .ok r) ↔ Q) :
    (∃ r, (takePrice cs x >>= f) = .ok r) ↔ Covers money x ∧ Q := by
  rw [ok_then, ← take_iff hx ho hm]
  constructor
  · rintro ⟨y, h1, h2⟩; exact ⟨⟨y, h1⟩, (hQ y).mp h2⟩
  · rintro ⟨⟨y, h1⟩, h2⟩; exact ⟨y, h1, (hQ y).mpr h2⟩

theorem buy_core (hinj : HashInj p) (hpf : PrefixFree p) (hw : WF p s) (hf : Fits s funds) {t : State}
    (ha : t.asks = s.asks) (hc : t.config = s.config) {b : Bid} (hv : p.valid b.collection = true) {sender : Addr}
    {cs money : List Coin} (ho : Once cs) (hm : ∀ d, amountOf d cs = amountOf d money) {els : Out} {rest : Prop}
    (hrest : (∃ r, els = .ok r) ↔ Covers money b.details.price ∧ rest) :
    (∃ r, (match b.matchWithAsk p t with
      | some ask => takePrice cs ask.details.price >>= fun left =>
        finalizeSale p ctx t ask t.config (.bid b) true [] >>= fun r => .ok (r.1, refund sender left r.2)
      | none => els) = .ok r) ↔ BuysOne p ctx s money b.collection b.tokenId b.details rest := by
  have e : b.matchWithAsk p t = b.matchWithAsk p s := by unfold Bid.matchWithAsk; rw [ha]
  rw [e]
  cases hma : b.matchWithAsk p s with
  | none =>
    have h : ∀ a, ¬ WithinPrice s b.collection b.tokenId b.details.price a := by
      intro a h
      rw [(bid_match hinj hpf hw hv).mpr h] at hma; cases hma
    simp only
    rw [hrest]
    constructor
    · intro hr; exact .inr ⟨h, hr⟩
    · rintro (⟨o, h1, _⟩ | ⟨_, h1⟩)
      · exact (h o h1).elim
      · exact h1
  | some a =>
    have h := (bid_match hinj hpf hw hv).mp hma
    have ⟨⟨id, hid⟩, hcol, _⟩ := h
    have hset : ∀ l : List Coin, (∃ r, (finalizeSale p ctx t a t.config (.bid b) true [] >>= fun r => (.ok (r.1, refund sender l r.2) : Out)) = .ok r) ↔
        Divides p ctx s b.collection a.details.price a.details.finder b.details.finder := by
      intro l
      rw [refund_done, settle_iff (a := a) (mb := .bid b) (abb := true) hw hc (hf.asks id a hid), ← hcol]
      exact Iff.rfl
    simp only
    rw [take_then (hw.ask hid).2.2.2 ho hm hset]
    constructor
    · rintro ⟨h1, h2⟩; exact .inl ⟨a, h, h1, h2⟩
    · rintro (⟨a', h1, h2⟩ | ⟨h1, _⟩)
      · have := (bid_match hinj hpf hw hv).mpr h1
        rw [hma] at this; cases this
        exact h2
      · exact (h1 a h).elim

theorem any_core (hlim : 1 ≤ p.maxLimit) (hw : WF p s) (hf : Fits s funds) {t : State}
    (ha : t.asks = s.asks) (hc : t.config = s.config) {b : CBid} {sender : Addr}
    {cs money : List Coin} (ho : Once cs) (hm : ∀ d, amountOf d cs = amountOf d money) {els : Out} {rest : Prop}
    (hrest : (∃ r, els = .ok r) ↔ Covers money b.details.price ∧ rest) :
    (∃ r, (b.matchWithAsk p t >>= fun m => match m with
      | some ask => takePrice cs ask.details.price >>= fun left =>
        finalizeSale p ctx t ask t.config (.cbid b) true [] >>= fun r => .ok (r.1, refund sender left r.2)
      | none => els) = .ok r) ↔ BuysAny p ctx s money b.collection b.details rest := by
  have e : b.matchWithAsk p t = b.matchWithAsk p s := by
    unfold CBid.matchWithAsk queryAsksByCollectionDenom askEntries; rw [ha]
  rw [e]
  by_cases hb : b.details.price.amount + 1 < 2^128
  case neg =>
    constructor
    · rintro ⟨r, h⟩
      rw [bind_ok] at h
      obtain ⟨m, h, _⟩ := h
      unfold CBid.matchWithAsk at h
      rw [bind_ok] at h
      obtain ⟨n, h, _⟩ := h
      rw [u128_ok] at h
      unfold U128MAX at h; omega
    · rintro ⟨h, _⟩; exact absurd h hb
  obtain ⟨o, hma, hmt⟩ := cbid_match (p := p) (s := s) hlim hb
  rw [hma, ok_bind]
  unfold BuysAny
  rw [and_iff_right hb]
  cases o with
  | none =>
    have h : ∀ a, ¬ CheapestWithin s b.collection b.details.price a := by
      intro a h
      cases (hmt a).mpr h
    simp only
    rw [hrest]
    constructor
    · intro hr; exact .inr ⟨h, hr⟩
    · rintro (⟨o, h1, _⟩ | ⟨_, h1⟩)
      · exact (h o h1).elim
      · exact h1
  | some a =>
    have h := (hmt a).mp rfl
    obtain ⟨id, ⟨hid, hcol, _⟩, _⟩ := h
    have hset : ∀ l : List Coin, (∃ r, (finalizeSale p ctx t a t.config (.cbid b) true [] >>= fun r => (.ok (r.1, refund sender l r.2) : Out)) = .ok r) ↔
        Divides p ctx s b.collection a.details.price a.details.finder b.details.finder := by
      intro l
      rw [refund_done, settle_iff (a := a) (mb := .cbid b) (abb := true) hw hc (hf.asks id a hid), ← hcol]
      exact Iff.rfl
    simp only
    rw [take_then (hw.ask hid).2.2.2 ho hm hset]
    constructor
    · rintro ⟨h1, h2⟩; exact .inl ⟨a, (hmt a).mp rfl, h1, h2⟩
    · rintro (⟨a', h1, h2⟩ | ⟨h1, _⟩)
      · have := (hmt a').mpr h1
        cases this
        exact h2
      · exact (h1 a ((hmt a).mp rfl)).elim

theorem hand_core (hinj : HashInj p) (hpf : PrefixFree p) (hw : WF p s) {sender : Addr} {c t : Bytes} (hv : p.valid c = true) {d : Details}
    {mb : MatchingBid} (hx : mb.details.price.amount < 2^128) :
    (∃ r, (acceptorAsk p ctx sender c t d s >>= fun ask => finalizeSale p ctx s ask s.config mb false []) = .ok r) ↔
      Hands p ctx s sender c t mb.details d := by
  have hset : ∀ a : Ask, (∃ r, finalizeSale p ctx s a s.config mb false [] = .ok r) ↔
      Divides p ctx s a.collection mb.details.price mb.details.finder a.details.finder :=
    fun a => settle_iff (a := a) (mb := mb) (abb := false) hw rfl hx
  unfold acceptorAsk Hands
  cases hg : s.asks.get? (askId p c t) with
  | none =>
    have hu := (unlisted_iff hinj hpf hw hv).mp hg
    simp only
    rw [ok_then]
    constructor
    · rintro ⟨a, h1, h2⟩
      rw [bind_ok] at h1
      obtain ⟨_, h1, h3⟩ := h1
      cases h3
      exact .inr ⟨hu, mayOwn_iff.mp h1, (hset _).mp h2⟩
    · rintro (⟨id, a, h1, h2, h3, _⟩ | ⟨_, h1, h2⟩)
      · exact absurd ⟨h2, h3⟩ (hu id a h1)
      · refine ⟨Ask.new p sender c t d, ?_, (hset _).mpr h2⟩
        rw [mayOwn_iff.mpr h1]; rfl
  | some a =>
    obtain ⟨⟨id, h1⟩, h2, h3⟩ := (at_id hinj hpf hw hv).mp hg
    simp only
    rw [ok_then]
    constructor
    · rintro ⟨a', k1, k2⟩
      rw [bind_ok] at k1
      obtain ⟨_, k1, k3⟩ := k1
      cases k3
      rw [ensure_ok] at k1
      have := (hset _).mp k2
      rw [h2] at this
      exact .inl ⟨id, a, h1, h2, h3, k1.symm, this⟩
    · rintro (⟨id', a', k1, k2, k3, k4, k5⟩ | ⟨k1, _⟩)
      · have := (at_id hinj hpf hw hv).mpr ⟨⟨id', k1⟩, k2, k3⟩
        rw [hg] at this; cases this
        refine ⟨a, ?_, (hset a).mpr (by rw [h2]; exact k5)⟩
        rw [bind_ok]
        exact ⟨(), ensure_ok.mpr k4.symm, rfl⟩
      · exact absurd ⟨h2, h3⟩ (k1 id a h1)

/-! ### handlers -/

variable {sender : Addr}

theorem ask_accepted (hlim : 1 ≤ p.maxLimit) (hinj : HashInj p) (hpf : PrefixFree p) (hns : NoSlash p) (hw : WF p s)
    (hf : Fits s funds) {c t : Bytes} {d : Details} (hv : p.valid c = true) (now : Bool) {rest : Prop}
    (hr : rest ↔ now = false ∧ Unlisted s c t) :
    (∃ r, executeSetAsk p ctx sender funds c t d now s = .ok r) ↔
      MayOwn ctx c t sender ∧ Opened ctx c ∧ Priced s c d.price ∧ PaysListing s funds ∧ SellsOne p ctx s c t d rest := by
  unfold executeSetAsk
  have core : ∀ x : Coin, (∃ r, (match (Ask.new p sender c t d).matchWithBid p s with
      | some mb => finalizeSale p ctx s (Ask.new p sender c t d) s.config mb false [transferCoin x s.config.feeManager]
      | none => if now then (.error .noMatch : Out)
        else ensure (s.asks.get? (Ask.new p sender c t d).id = none) .internal >>= fun _ =>
        .ok ({ s with asks := s.asks.insert (Ask.new p sender c t d).id (Ask.new p sender c t d) },
          [transferCoin x s.config.feeManager] ++ [transferNft c t ctx.self])) = .ok r) ↔
      SellsOne p ctx s c t d rest := by
    intro x
    refine sell_core (a := Ask.new p sender c t d) hlim hns hw hf hv ?_
    rw [hr]
    cases now with
    | true =>
      rw [if_pos rfl]
      exact ⟨fun ⟨r, h⟩ => (by cases h), fun ⟨h, _⟩ => (by cases h)⟩
    | false =>
      rw [if_neg (by decide), ensure_then, ok_done, and_true]
      rw [← unlisted_iff hinj hpf hw hv]
      exact ⟨fun h => ⟨rfl, h⟩, fun h => h.2⟩
  rw [unit_then mayOwn_iff, unit_then opened_iff, unit_then priced_iff]
  refine and_congr_right fun _ => and_congr_right fun _ => and_congr_right fun _ => ?_
  exact (listing_then (fun x y => (core x).trans (core y).symm) ⟨[], 0⟩).trans (and_congr_right fun _ => core _)

theorem bid_accepted (hinj : HashInj p) (hpf : PrefixFree p) (hr : Reach p me NoWrap s) (hg : NoWrap s)
    (hf : Fits s funds) {c t : Bytes} {d : Details} (hv : p.valid c = true) (now : Bool) {rest : Prop}
    (hrest : rest ↔ now = false) :
    (∃ r, executeSetBid p ctx sender funds c t d now s = .ok r) ↔
      Opened ctx c ∧ Priced s c d.price ∧ BuysOne p ctx s funds c t d rest := by
  have hw := hr.wf
  unfold executeSetBid
  obtain ⟨cs, hcs, ho, hm⟩ := normal hf.funds
  rw [unit_then opened_iff, unit_then priced_iff, hcs, ok_bind]
  refine and_congr_right fun _ => and_congr_right fun hp => ?_
  refine buy_core (s := s) (t := { s with nonce := nextNonce s }) (b := Bid.new p sender c t d ctx.height (nextNonce s))
    hinj hpf hw hf rfl rfl hv ho hm ?_
  rw [hrest]
  cases now with
  | true =>
    rw [if_pos rfl]
    exact ⟨fun ⟨r, h⟩ => (by cases h), fun ⟨_, h⟩ => (by cases h)⟩
  | false =>
    rw [if_neg (by decide)]
    refine take_then hp.1 ho hm ?_
    intro l
    rw [ensure_then, ok_done]
    exact ⟨fun _ => rfl, fun _ => ⟨fresh_bid hr.nonce hinj hg sender c t d ctx.height, trivial⟩⟩

theorem any_accepted (hlim : 1 ≤ p.maxLimit) (hinj : HashInj p) (hr : Reach p me NoWrap s) (hg : NoWrap s)
    (hf : Fits s funds) {c : Bytes} {d : Details} (now : Bool) {rest : Prop} (hrest : rest ↔ now = false) :
    (∃ r, executeSetCollectionBid p ctx sender funds c d now s = .ok r) ↔
      Opened ctx c ∧ Priced s c d.price ∧ BuysAny p ctx s funds c d rest := by
  have hw := hr.wf
  unfold executeSetCollectionBid
  obtain ⟨cs, hcs, ho, hm⟩ := normal hf.funds
  rw [unit_then opened_iff, unit_then priced_iff, hcs, ok_bind]
  refine and_congr_right fun _ => and_congr_right fun hp => ?_
  refine any_core (s := s) (t := { s with nonce := nextNonce s }) (b := CBid.new p sender c d ctx.height (nextNonce s))
    hlim hw hf rfl rfl ho hm ?_
  rw [hrest]
  cases now with
  | true =>
    rw [if_pos rfl]
    exact ⟨fun ⟨r, h⟩ => (by cases h), fun ⟨_, h⟩ => (by cases h)⟩
  | false =>
    rw [if_neg (by decide)]
    refine take_then hp.1 ho hm ?_
    intro l
    rw [ensure_then, ok_done]
    exact ⟨fun _ => rfl, fun _ => ⟨fresh_cbid hr.nonce hinj hg sender c d ctx.height, trivial⟩⟩

theorem add_then {β : Type} {cs : List Coin} {x : Coin} (hx : x.amount < 2^128) (ho : Once cs)
    (hm : ∀ d, amountOf d cs = amountOf d funds) {f : List Coin → Res β} {Q : Prop}
    (hQ : ∀ l, Once l → (∀ d, amountOf d l = amountOf d (x :: funds)) → ((∃ r, f l = .ok r) ↔ Q)) :
    (∃ r, (nbAdd cs x >>= f) = .ok r) ↔ Adds funds x ∧ Q := by
  have key : ∀ y, nbAdd cs x = .ok y → ((∃ r, f y = .ok r) ↔ Q) := by
    intro y hy
    refine hQ y (add_once ho hy).1 ?_
    intro d
    rw [(nbAdd_ok hy).1 d, hm, amountOf]; omega
  unfold Adds
  rw [ok_then, ← hm, ← add_iff hx ho]
  constructor
  · rintro ⟨y, h1, h2⟩; exact ⟨⟨y, h1⟩, (key y h1).mp h2⟩
  · rintro ⟨⟨y, h1⟩, h2⟩; exact ⟨y, h1, (key y h1).mpr h2⟩

theorem upd_accepted (hinj : HashInj p) (hpf : PrefixFree p) (hw : WF p s) (hf : Fits s funds) {id : Bytes} {d : Details} :
    (∃ r, executeUpdateBid p ctx sender funds id d s = .ok r) ↔
      ∃ b, s.bids.get? id = some b ∧ b.creator = sender ∧ Priced s b.collection d.price ∧ Adds funds b.details.price ∧
        BuysOne p ctx s (b.details.price :: funds) b.collection b.tokenId d True := by
  unfold executeUpdateBid
  rw [found_then]
  refine exists_congr fun b => and_congr_right fun hb => ?_
  obtain ⟨cs, hcs, ho, hm⟩ := normal hf.funds
  rw [ensure_then, unit_then priced_iff, hcs, ok_bind]
  refine and_congr eq_comm (and_congr_right fun hp => ?_)
  refine add_then (hf.bids id b hb) ho hm ?_
  intro l ho' hm'
  refine buy_core (s := s) (t := s) (b := { b with details := d }) hinj hpf hw hf rfl rfl (hw.bid hb).2.1 ho' hm' ?_
  exact take_then hp.1 ho' hm' (fun _ => ok_done)

theorem updAny_accepted (hlim : 1 ≤ p.maxLimit) (hw : WF p s) (hf : Fits s funds) {id : Bytes} {d : Details} :
    (∃ r, executeUpdateCollectionBid p ctx sender funds id d s = .ok r) ↔
      ∃ b, s.cbids.get? id = some b ∧ b.creator = sender ∧ Priced s b.collection d.price ∧ Adds funds b.details.price ∧
        BuysAny p ctx s (b.details.price :: funds) b.collection d True := by
  unfold executeUpdateCollectionBid
  rw [found_then]
  refine exists_congr fun b => and_congr_right fun hb => ?_
  obtain ⟨cs, hcs, ho, hm⟩ := normal hf.funds
  rw [ensure_then, unit_then priced_iff, hcs, ok_bind]
  refine and_congr eq_comm (and_congr_right fun hp => ?_)
  refine add_then (hf.cbids id b hb) ho hm ?_
  intro l ho' hm'
  refine any_core (s := s) (t := s) (b := { b with details := d }) hlim hw hf rfl rfl ho' hm' ?_
  exact take_then hp.1 ho' hm' (fun _ => ok_done)

/-- C160: in every reachable state a call succeeds if and only if the specification lists it. -/
theorem C160_v2 (hlim : 1 ≤ p.maxLimit) (hinj : HashInj p) (hpf : PrefixFree p) (hns : NoSlash p) (hr : Reach p me NoWrap s)
    (hg : NoWrap s) (hf : Fits s funds) (m : Exec) :
    (∃ r, execute p ctx sender funds m s = .ok r) ↔ Accepted p ctx s sender funds m := by
  have hw := hr.wf
  cases m with
  | updateConfig c =>
    unfold execute
    rw [ok_then]
    simp only [configStr_ok, executeUpdateConfig, unit_then admin_iff, unit_then configValidate_ok, ok_done, and_true]
    constructor
    · rintro ⟨_, ⟨⟨h1, h2⟩, rfl⟩, h3, h4⟩; exact ⟨h3, h1, h2, h4⟩
    · rintro ⟨h3, h1, h2, h4⟩; exact ⟨_, ⟨⟨h1, h2⟩, rfl⟩, h3, h4⟩
  | updateCollectionDenom c dn =>
    simp only [execute, valid_then, executeUpdateCollectionDenom, unit_then admin_iff, ok_done, and_true]
    exact and_comm
  | setListingFee x => simp only [execute, executeSetListingFee, unit_then admin_iff, ok_done, and_true]; exact Iff.rfl
  | removeListingFee x => simp only [execute, executeRemoveListingFee, unit_then admin_iff, ok_done, and_true]; exact Iff.rfl
  | setAsk c t d =>
    simp only [execute, valid_then, details_then]
    exact and_congr_right fun hv => and_congr_right fun _ =>
      ask_accepted hlim hinj hpf hns hw hf hv false ⟨fun h => ⟨rfl, h⟩, fun h => h.2⟩
  | sellNft c t d =>
    simp only [execute, valid_then, details_then]
    exact and_congr_right fun hv => and_congr_right fun _ =>
      ask_accepted hlim hinj hpf hns hw hf hv true ⟨fun h => h.elim, fun h => (by cases h.1)⟩
  | updateAsk id d =>
    simp only [execute, details_then, executeUpdateAsk, unit_then nonpayable_ok, found_then, ensure_then, unit_then priced_iff]
    refine and_congr_right fun _ => and_congr_right fun _ => exists_congr fun a => and_congr_right fun ha =>
      and_congr eq_comm (and_congr_right fun _ => ?_)
    exact sell_core (a := { a with details := d }) hlim hns hw hf (hw.ask ha).2.2.1 ok_done
  | removeAsk id =>
    simp only [execute, executeRemoveAsk, unit_then nonpayable_ok, found_then, ensure_then, ok_done, and_true]
    exact and_congr_right fun _ => exists_congr fun a => and_congr_right fun _ => eq_comm
  | acceptAsk id d =>
    simp only [execute, details_then, executeAcceptAsk]
    obtain ⟨cs, hcs, ho, hm⟩ := normal hf.funds
    rw [hcs, ok_bind, found_then]
    refine and_congr_right fun _ => exists_congr fun a => and_congr_right fun ha => ?_
    rw [ensure_then, hasCoins_single, and_assoc]
    refine and_congr eq_comm (and_congr_right fun _ => ?_)
    refine take_then (hw.ask ha).2.2.2 ho hm ?_
    intro l
    rw [refund_done]
    exact settle_iff (s := s) (t := { s with nonce := nextNonce s }) (a := a)
      (mb := .bid (Bid.new p sender a.collection a.tokenId d ctx.height (nextNonce s))) (abb := true) hw rfl (hf.asks id a ha)
  | setBid c t d =>
    simp only [execute, valid_then, details_then]
    exact and_congr_right fun hv => and_congr_right fun _ => bid_accepted hinj hpf hr hg hf hv false ⟨fun _ => rfl, fun _ => trivial⟩
  | buySpecificNft c t d =>
    simp only [execute, valid_then, details_then]
    exact and_congr_right fun hv => and_congr_right fun _ => bid_accepted hinj hpf hr hg hf hv true ⟨fun h => h.elim, fun h => (by cases h)⟩
  | updateBid id d =>
    simp only [execute, details_then]
    exact and_congr_right fun _ => upd_accepted hinj hpf hw hf
  | removeBid id =>
    simp only [execute, executeRemoveBid, unit_then nonpayable_ok, found_then, ensure_then, ok_done, and_true]
    exact and_congr_right fun _ => exists_congr fun a => and_congr_right fun _ => eq_comm
  | acceptBid id d =>
    simp only [execute, details_then, executeAcceptBid, found_then, ensure_then, hasCoins_single, and_assoc]
    refine and_congr_right fun _ => exists_congr fun b => and_congr_right fun hb => and_congr_right fun _ => and_congr_right fun _ => ?_
    exact hand_core (mb := .bid b) hinj hpf hw (hw.bid hb).2.1 (hf.bids id b hb)
  | setCollectionBid c d =>
    simp only [execute, valid_then, details_then]
    exact and_congr_right fun _ => and_congr_right fun _ => any_accepted hlim hinj hr hg hf false ⟨fun _ => rfl, fun _ => trivial⟩
  | buyCollectionNft c d =>
    simp only [execute, valid_then, details_then]
    exact and_congr_right fun _ => and_congr_right fun _ => any_accepted hlim hinj hr hg hf true ⟨fun h => h.elim, fun h => (by cases h)⟩
  | updateCollectionBid id d =>
    simp only [execute, details_then]
    exact and_congr_right fun _ => updAny_accepted hlim hw hf
  | removeCollectionBid id =>
    simp only [execute, executeRemoveCollectionBid, unit_then nonpayable_ok, found_then, ensure_then, ok_done, and_true]
    exact and_congr_right fun _ => exists_congr fun a => and_congr_right fun _ => eq_comm
  | acceptCollectionBid id t d =>
    simp only [execute, details_then, executeAcceptCollectionBid, found_then, ensure_then, hasCoins_single, and_assoc]
    refine and_congr_right fun _ => exists_congr fun b => and_congr_right fun hb => and_congr_right fun _ => and_congr_right fun _ => ?_
    exact hand_core (mb := .cbid b) hinj hpf hw (hw.cbid hb).2.1 (hf.cbids id b hb)

namespace Sample
theorem fits4 {funds : List Coin} (hf : ∀ d, amountOf d funds < 2^128) : Fits s4 funds where
  funds := hf
  asks k b h := by
    have h1 : ∀ x ∈ s4.asks.l, x.2.details.price.amount < 2^128 := by decide +kernel
    exact h1 (k, b) (AMap.mem_iff.mpr h)
  bids k b h := by
    have h1 : ∀ x ∈ s4.bids.l, x.2.details.price.amount < 2^128 := by decide +kernel
    exact h1 (k, b) (AMap.mem_iff.mpr h)
  cbids k b h := by
    have h1 : ∀ x ∈ s4.cbids.l, x.2.details.price.amount < 2^128 := by decide +kernel
    exact h1 (k, b) (AMap.mem_iff.mpr h)

theorem one_fits (n : Nat) (hn : n < 2^128) (d : Denom) : amountOf d [⟨ust, n⟩] < 2^128 := by
  simp only [amountOf, Coin.inDenom]
  split <;> omega

theorem accepts4 {c : Ctx} {sender : Addr} {funds : List Coin} (hf : ∀ d, amountOf d funds < 2^128) (m : Exec) :
    (∃ r, execute P c sender funds m s4 = .ok r) ↔ Accepted P c s4 sender funds m :=
  C160_v2 (ctx := c) (sender := sender) (by decide : 1 ≤ P.maxLimit) hashInj prefixFree noSlash r4 (by decide +kernel) (fits4 hf) m

/-- bob can buy the token listed at 100 with 120 -/
example := (accepts4 (c := Sample.ctx (some self)) (sender := bob) (one_fits 120 (by decide)) (.acceptAsk aid (det 110))).mp
  ⟨_, run_eq (by decide +kernel)⟩
/-- and not with 99 -/
example : ¬ Accepted P (Sample.ctx (some self)) s4 bob [⟨ust, 99⟩] (.acceptAsk aid (det 110)) := by
  rw [← accepts4 (one_fits 99 (by decide))]
  rintro ⟨r, hr⟩
  have : ok (Sample.ctx (some self)) bob [⟨ust, 99⟩] (.acceptAsk aid (det 110)) s4 = false := by decide +kernel
  rw [ok, hr] at this
  cases this
/-- the collection bid of 90 goes before the token bid of 80 when alice lowers the price -/
example := (accepts4 (c := Sample.ctx (some self)) (sender := alice) (funds := []) (fun _ => (by decide : 0 < 2^128)) (.updateAsk aid (det 70))).mp
  ⟨_, run_eq (by decide +kernel)⟩
/-- bob raises the bid from 80 to 100 by adding 20 -/
example := (accepts4 (c := Sample.ctx (some self)) (sender := bob) (one_fits 20 (by decide)) (.updateBid bid (det 100))).mp
  ⟨_, run_eq (by decide +kernel)⟩
example : Accepted P (Sample.ctx (some self)) s4 alice [] (.removeAsk aid) := ⟨rfl, by
  obtain ⟨r, hr⟩ : ∃ r, execute P (Sample.ctx (some self)) alice [] (.removeAsk aid) s4 = .ok r := ⟨_, run_eq (by decide +kernel)⟩
  exact ((accepts4 (funds := []) (fun _ => (by decide : 0 < 2^128)) (.removeAsk aid)).mp ⟨r, hr⟩).2⟩
end Sample

end
end Verif.V2

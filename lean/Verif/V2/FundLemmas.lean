/- Lemmas for the properties about funds and custody. Helper file, no properties. -/
import Verif.V2.ReachLemmas
import Verif.Base.Custody

namespace Verif.V2
open Verif Spec

section
variable {p : Params} {me : Addr} {G : State → Prop}

theorem amountOf_map {α : Type} (d : Denom) (f : α → Coin) : ∀ l : List α,
    amountOf d (l.map f) = (l.map (fun x => (f x).inDenom d)).sum
  | [] => rfl
  | x :: l => by
    rw [List.map_cons, List.map_cons, List.sum_cons, amountOf, amountOf_map d f l]

theorem escrow_eq (s : State) (d : Denom) : escrow s d = amountOf d (bidCoins s) := by
  unfold escrow bidCoins AMap.sum
  rw [amountOf_append, amountOf_map, amountOf_map]

theorem outflow_eq (d : Denom) : ∀ ms : List Msg, outflow d ms = paidOut d ms
  | [] => rfl
  | m :: ms => by
    rw [outflow_cons, outflow_eq d ms]
    cases m <;> simp [Msg.out, paidOut]

theorem paidOut_append (d : Denom) (a b : List Msg) : paidOut d (a ++ b) = paidOut d a + paidOut d b := by
  rw [← outflow_eq, ← outflow_eq, ← outflow_eq, outflow_append]

/-- Creators of open orders. -/
def CreInv (me : Addr) (s : State) : Prop :=
  (∀ id a, s.asks.get? id = some a → a.creator ≠ me) ∧ (∀ id b, s.bids.get? id = some b → b.creator ≠ me) ∧
  (∀ id b, s.cbids.get? id = some b → b.creator ≠ me)

theorem CreInv.shrink {s s' : State} (h : CreInv me s) (hs : Shrink s s') : CreInv me s' :=
  ⟨fun id a ha => h.1 id a (hs.ask ha), fun id a ha => h.2.1 id a (hs.bid ha), fun id a ha => h.2.2 id a (hs.cbid ha)⟩

theorem insert_cre {V : Type} {P : V → Prop} {m : AMap Bytes V} {k : Bytes} {v : V}
    (h : ∀ id a, m.get? id = some a → P a) (hv : P v) : ∀ id a, (m.insert k v).get? id = some a → P a := by
  intro id a ha
  rw [AMap.get?_insert] at ha
  split at ha
  · cases ha; exact hv
  · exact h id a ha

theorem CreInv.eff {ctx : Ctx} {sender : Addr} {funds : List Coin} {m : Exec} {s s' : State} {msgs : List Msg}
    (h : CreInv me s) (hne : sender ≠ me) (e : Eff p ctx sender funds s m s' msgs) : CreInv me s' := by
  cases e with
  | config => exact h
  | denom => exact h
  | setFee => exact h
  | rmFee => exact h
  | restAsk => exact ⟨insert_cre (P := fun a : Ask => a.creator ≠ me) h.1 hne, h.2.1, h.2.2⟩
  | sellAsk => exact h.shrink (afterSale_shrink _ _ _)
  | updAsk id d a hf hd ha hcr => exact ⟨insert_cre (P := fun a : Ask => a.creator ≠ me) h.1 (h.1 id a ha), h.2.1, h.2.2⟩
  | updSell => exact h.shrink (afterSale_shrink _ _ _)
  | rmAsk => exact h.shrink ⟨erase_sub, id, id⟩
  | accAsk => exact h.shrink (afterSale_bump_shrink _ _ _)
  | restBid => exact ⟨h.1, insert_cre (P := fun b : Bid => b.creator ≠ me) h.2.1 hne, h.2.2⟩
  | buyBid => exact h.shrink (afterSale_bump_shrink _ _ _)
  | updBid id d b fn fa left hd hb => exact ⟨h.1, insert_cre (P := fun b : Bid => b.creator ≠ me) h.2.1 (h.2.1 id b hb), h.2.2⟩
  | updBuy => exact h.shrink (afterSale_shrink _ _ _)
  | rmBid => exact h.shrink ⟨id, erase_sub, id⟩
  | accBid => exact h.shrink (afterSale_shrink _ _ _)
  | restCBid => exact ⟨h.1, h.2.1, insert_cre (P := fun b : CBid => b.creator ≠ me) h.2.2 hne⟩
  | buyCBid => exact h.shrink (afterSale_bump_shrink _ _ _)
  | updCBid id d b fn fa left hd hb => exact ⟨h.1, h.2.1, insert_cre (P := fun b : CBid => b.creator ≠ me) h.2.2 (h.2.2 id b hb)⟩
  | updCBuy => exact h.shrink (afterSale_shrink _ _ _)
  | rmCBid => exact h.shrink ⟨id, id, erase_sub⟩
  | accCBid => exact h.shrink (afterSale_shrink _ _ _)

theorem empty_get {K V : Type} [DecidableEq K] (k : K) : (AMap.empty : AMap K V).get? k = none := rfl

theorem init_empty {c : Config} {s : State} (h : instantiate p c = .ok s) :
    s.asks = .empty ∧ s.bids = .empty ∧ s.cbids = .empty := by
  unfold instantiate at h
  simp only [bind_ok] at h
  obtain ⟨_, _, _, _, h⟩ := h
  cases h; exact ⟨rfl, rfl, rfl⟩

theorem CreInv.init {c : Config} {s : State} (h : instantiate p c = .ok s) : CreInv me s := by
  obtain ⟨h1, h2, h3⟩ := init_empty h
  refine ⟨?_, ?_, ?_⟩
  · intro id a ha; rw [h1, empty_get] at ha; cases ha
  · intro id a ha; rw [h2, empty_get] at ha; cases ha
  · intro id a ha; rw [h3, empty_get] at ha; cases ha

theorem Spec.Reach.cre {s : State} (h : Reach p me G s) : CreInv me s := by
  induction h with
  | init h => exact CreInv.init h
  | call _ _ _ hne h ih => exact ih.eff hne (execute_eff h)

/-! ### Runs of the machine -/

variable {honest : Addr → Prop}

/-- Every state met in a run is reachable by calls. -/
theorem Spec.Run.reach {x : World State × List Msg} (h : Run p me honest x) : Reach p me Any x.1.st := by
  obtain ⟨c, w0, hi, hs⟩ := h
  refine Sys.Steps.inv (P := fun y => Reach p me Any y.1.st) ?_ hs (.init hi)
  intro a b ha hab
  refine Sys.state_inv_step (S := sys p me honest) (I := Reach p me Any) ?_ ?_ ha hab
  · intro ctx sender funds m s s' msgs h1 h2 h3 h4
    exact .call h3 trivial h1 h2 h4
  · intro ctx m; exact nomatch m

theorem Spec.Run.step {a b : World State × List Msg} (h : Run p me honest a) (hs : (sys p me honest).Step a b) :
    Run p me honest b := by
  obtain ⟨c, w0, hi, hst⟩ := h
  exact ⟨c, w0, hi, .tail hst hs⟩

theorem Spec.Run.solvent {x : World State × List Msg} (hlim : 1 ≤ p.maxLimit) (h : Run p me honest x) :
    (sys p me honest).Solvent escrow x := by
  obtain ⟨c, w0, hi, hs⟩ := h
  have h0 : WF p w0.st ∧ (sys p me honest).Solvent escrow (w0, []) := by
    refine ⟨WF.init hi, ?_⟩
    intro d
    obtain ⟨_, h2, h3⟩ := init_empty hi
    simp only [escrow, h2, h3, AMap.sum_empty, outflow_nil]
    exact Nat.zero_le _
  refine (Sys.Steps.inv (P := fun y => WF p y.1.st ∧ (sys p me honest).Solvent escrow y) ?_ hs h0).2
  rintro a b ⟨hw, hsol⟩ hab
  constructor
  · refine Sys.state_inv_step (S := sys p me honest) (I := WF p) ?_ ?_ hw hab
    · intro ctx sender funds m s s' msgs _ _ h3 h4
      exact h3.eff (execute_eff h4)
    · intro ctx m; exact nomatch m
  · refine Sys.solvent_step (S := sys p me honest) (I := WF p) ?_ ?_ hw hsol hab
    · intro ctx sender funds m s s' msgs _ _ h3 h4 d
      have := conservation h3 hlim (execute_eff h4) d
      omega
    · intro ctx m; exact nomatch m

/-! ### Custody -/

/-- Tokens with an open ask. -/
def held (s : State) (c : Addr) (t : Bytes) : Prop :=
  ∃ id a, s.asks.get? id = some a ∧ a.collection = c ∧ a.tokenId = t

theorem held_sub {s s' : State} (h : ∀ id a, s'.asks.get? id = some a → s.asks.get? id = some a) {c : Addr} {t : Bytes}
    (hh : held s' c t) : held s c t := by
  obtain ⟨id, a, h1, h2⟩ := hh
  exact ⟨id, a, h id a h1, h2⟩

/-- Plain messages do not matter for custody. -/
theorem J_plain {S : Sys State Exec Empty} {st : State} {owner : Addr → Bytes → Option Addr} {rest : List Msg} :
    ∀ {ms : List Msg}, (∀ m ∈ ms, (∃ to cs, m = .send to cs) ∨ ∃ a b, m = .initRoyalty a b) →
    (S.J held st owner (ms ++ rest) ↔ S.J held st owner rest)
  | [], _ => Iff.rfl
  | m :: ms, h => by
    have ih := J_plain (S := S) (st := st) (owner := owner) (rest := rest) (ms := ms) (fun m hm => h m (List.mem_cons_of_mem _ hm))
    rcases h m List.mem_cons_self with ⟨to, cs, rfl⟩ | ⟨a, b, rfl⟩ <;> exact ih

theorem pend_plain {S : Sys State Exec Empty} {st : State} {owner : Addr → Bytes → Option Addr} :
    ∀ {ms : List Msg}, (∀ m ∈ ms, (∃ to cs, m = .send to cs) ∨ ∃ a b, m = .initRoyalty a b) → S.Pend held st owner ms
  | [], _ => .nil
  | m :: ms, h => by
    refine .skip ?_ (pend_plain (fun m hm => h m (List.mem_cons_of_mem _ hm)))
    rintro c t to rfl
    rcases h _ List.mem_cons_self with ⟨to, cs, e⟩ | ⟨a, b, e⟩ <;> cases e

/-- One NFT goes out, nothing new is claimed, and the token is no longer claimed. -/
theorem J_sale {S : Sys State Exec Empty} {s s' : State} {owner : Addr → Bytes → Option Addr} {pre post : List Msg}
    {c : Addr} {t : Bytes} {to : Addr} (he : S.Esc held s owner)
    (hsub : ∀ id a, s'.asks.get? id = some a → s.asks.get? id = some a) (hn : ¬ held s' c t)
    (h1 : ∀ m ∈ pre, (∃ to cs, m = .send to cs) ∨ ∃ a b, m = .initRoyalty a b)
    (h2 : ∀ m ∈ post, (∃ to cs, m = .send to cs) ∨ ∃ a b, m = .initRoyalty a b) :
    S.J held s' owner (pre ++ .nft c t to :: post) := by
  have he' : S.Esc held s' owner := fun c t hc hh => he c t hc (held_sub hsub hh)
  rw [J_plain h1]
  constructor
  · intro _
    have := J_plain (S := S) (st := s') (owner := setOwner owner c t to) (rest := []) h2
    rw [List.append_nil] at this
    rw [this]
    exact he'.setOwner hn
  · intro _
    exact ⟨he', pend_plain h2⟩

theorem onlyOwner_self {ctx : Ctx} {sender : Addr} {coll tok : Bytes} {owner : Addr → Bytes → Option Addr}
    (h : onlyOwner ctx sender coll tok = .ok ()) (hne : sender ≠ me)
    (hq : ctx.q.ownerOf coll tok = owner coll tok) : owner coll tok ≠ some me := by
  intro ho
  exact hne (onlyOwner_ok h me (by rw [hq, ho])).symm

theorem x_split {ctx : Ctx} {a : Ask} {c : Config} {mb : MatchingBid} {abb : Bool} (x : SaleParts p ctx a c mb abb) :
    ∃ pre, x.msgs = pre ++ [.nft a.collection a.tokenId mb.recipient] ∧
      ∀ m ∈ pre, (∃ to cs, m = .send to cs) ∨ ∃ a b, m = .initRoyalty a b := by
  refine ⟨x.roy.2 ++ payoutMsgs x.payments, rfl, ?_⟩
  intro m hm
  rw [List.mem_append] at hm
  rcases hm with hm | hm
  · rcases fetchOrSet_msgs x.hroy with h | h
    · rw [h] at hm; cases hm
    · rw [h, List.mem_singleton] at hm; exact Or.inr ⟨_, _, hm⟩
  · obtain ⟨to, c, e⟩ := payoutMsgs_no_nft m hm
    exact Or.inl ⟨to, [c], e⟩

theorem not_held_after {s s' : State} (hw : WF p s) {a : Ask} (hid : a.id = askId p a.collection a.tokenId)
    (hasks : s'.asks = s.asks.erase a.id) : ¬ held s' a.collection a.tokenId := by
  rintro ⟨id, a', h, hc, ht⟩
  rw [hasks] at h
  have h2 := (hw.ask (erase_sub h)).2.1
  rw [hc, ht, ← hid] at h2
  subst h2
  simp at h

/-- Obligation of `custody_step` for `execute`. -/
theorem custody_exec (hlim : 1 ≤ p.maxLimit) {ctx : Ctx} {sender : Addr} {funds : List Coin} {m : Exec} {s s' : State} {msgs : List Msg}
    {owner : Addr → Bytes → Option Addr} (hself : ctx.self = me) (hne : sender ≠ me) (hw : WF p s)
    (hq : ∀ c t, honest c → ctx.q.ownerOf c t = owner c t) (he : (sys p me honest).Esc held s owner)
    (e : Eff p ctx sender funds s m s' msgs) :
    (sys p me honest).J held s' owner msgs ∧ (sys p me honest).Untouched held owner s s' msgs := by
  -- calls that move no NFT and do not add asks
  have quiet : (∀ c t, held s' c t → held s c t) → (∀ m ∈ msgs, (∃ to cs, m = .send to cs) ∨ ∃ a b, m = .initRoyalty a b) →
      (sys p me honest).J held s' owner msgs ∧ (sys p me honest).Untouched held owner s s' msgs := by
    intro hsub hpl
    constructor
    · have := J_plain (S := sys p me honest) (st := s') (owner := owner) (rest := []) hpl
      rw [List.append_nil] at this
      rw [this]
      exact fun c t hc hh => he c t hc (hsub c t hh)
    · intro c t hc ho hn
      refine ⟨fun hh => hn (hsub c t hh), ?_⟩
      intro to hm
      rcases hpl _ hm with ⟨_, _, e⟩ | ⟨_, _, e⟩ <;> cases e
  have hsendrefund : ∀ left, ∀ m ∈ refund sender left [], (∃ to cs, m = .send to cs) ∨ ∃ a b, m = .initRoyalty a b := by
    intro left m hm
    obtain ⟨post, e, h, _⟩ := refund_eq sender left []
    rw [e, List.nil_append] at hm
    obtain ⟨cs, e⟩ := h m hm
    exact Or.inl ⟨_, _, e⟩
  -- sales
  have sale : ∀ (a : Ask) (pre post : List Msg) (to : Addr), a.id = askId p a.collection a.tokenId →
      s'.asks = s.asks.erase a.id → msgs = pre ++ .nft a.collection a.tokenId to :: post →
      (∀ m ∈ pre, (∃ to cs, m = .send to cs) ∨ ∃ a b, m = .initRoyalty a b) →
      (∀ m ∈ post, (∃ to cs, m = .send to cs) ∨ ∃ a b, m = .initRoyalty a b) →
      (honest a.collection → owner a.collection a.tokenId = some me → held s a.collection a.tokenId) →
      (sys p me honest).J held s' owner msgs ∧ (sys p me honest).Untouched held owner s s' msgs := by
    intro a pre post to hid hasks hmsgs h1 h2 hheld
    have hsub : ∀ id a, s'.asks.get? id = some a → s.asks.get? id = some a := by
      intro id a h; rw [hasks] at h; exact erase_sub h
    constructor
    · rw [hmsgs]; exact J_sale he hsub (not_held_after hw hid hasks) h1 h2
    · intro c t hc ho hn
      refine ⟨fun hh => hn (held_sub hsub hh), ?_⟩
      intro to' hm
      rw [hmsgs, List.mem_append, List.mem_cons] at hm
      rcases hm with hm | hm | hm
      · rcases h1 _ hm with ⟨_, _, e⟩ | ⟨_, _, e⟩ <;> cases e
      · cases hm; exact hn (hheld hc ho)
      · rcases h2 _ hm with ⟨_, _, e⟩ | ⟨_, _, e⟩ <;> cases e
  have own : ∀ {coll tok : Bytes}, onlyOwner ctx sender coll tok = .ok () → honest coll → owner coll tok = some me →
      held s coll tok := by
    intro coll tok h hc ho
    exact absurd ho (onlyOwner_self h hne (hq _ _ hc))
  have stored : ∀ {id : Bytes} {a : Ask}, s.asks.get? id = some a → held s a.collection a.tokenId :=
    fun h => ⟨_, _, h, rfl, rfl⟩
  have sid : ∀ {id : Bytes} {a : Ask}, s.asks.get? id = some a → a.id = askId p a.collection a.tokenId := by
    intro id a h; rw [(hw.ask h).1]; exact (hw.ask h).2.1
  have buy : ∀ (a : Ask) (mb : MatchingBid) (abb : Bool) (x : SaleParts p ctx a s.config mb abb) (left : List Coin) (id : Bytes),
      s.asks.get? id = some a → s'.asks = s.asks.erase a.id → msgs = refund sender left x.msgs →
      (sys p me honest).J held s' owner msgs ∧ (sys p me honest).Untouched held owner s s' msgs := by
    intro a mb abb x left id ha hasks hmsgs
    obtain ⟨pre, e1, h1⟩ := x_split x
    obtain ⟨post, e2, h2, _⟩ := refund_eq sender left x.msgs
    refine sale a pre post mb.recipient (sid ha) hasks (by rw [hmsgs, e2, e1]; simp) h1 ?_ (fun _ _ => stored ha)
    intro m hm; obtain ⟨cs, e⟩ := h2 m hm; exact Or.inl ⟨_, _, e⟩
  cases e with
  | config => exact quiet (fun _ _ h => h) (by simp)
  | denom => exact quiet (fun _ _ h => h) (by simp)
  | setFee => exact quiet (fun _ _ h => h) (by simp)
  | rmFee => exact quiet (fun _ _ h => h) (by simp)
  | restAsk coll tok d pay hv hd hown htr hpr hf hpos hfee hm hnew =>
    have hins : ∀ c t, held { s with asks := s.asks.insert (askId p coll tok) (Ask.new p sender coll tok d) } c t →
        held s c t ∨ (c = coll ∧ t = tok) := by
      rintro c t ⟨id, a, h, h1, h2⟩
      simp only [AMap.get?_insert] at h
      split at h
      · cases h; exact Or.inr ⟨h1.symm, h2.symm⟩
      · exact Or.inl ⟨id, a, h, h1, h2⟩
    constructor
    · refine ⟨?_, ?_⟩
      · intro hc c t hc' hh
        unfold setOwner
        split
        · rw [hself]; rfl
        case isFalse hne' =>
          rcases hins c t hh with h | h
          · exact he c t hc' h
          · exact absurd h hne'
      · intro hc
        refine ⟨?_, .nil⟩
        intro c t hc' hh
        rcases hins c t hh with h | ⟨rfl, rfl⟩
        · exact he c t hc' h
        · exact absurd hc' hc
    · intro c t hc ho hn
      have hnot : ¬ (c = coll ∧ t = tok) := by
        rintro ⟨rfl, rfl⟩; exact hn (own hown hc ho)
      refine ⟨fun hh => ?_, ?_⟩
      · rcases hins c t hh with h | h
        · exact hn h
        · exact hnot h
      · intro to hm
        simp only [List.mem_cons, List.not_mem_nil, or_false, reduceCtorEq, false_or, Msg.nft.injEq] at hm
        exact hnot ⟨hm.1, hm.2.1⟩
  | sellAsk m coll tok d pay mb hm hv hd hown htr hpr hf hpos hfee hmb x =>
    obtain ⟨pre, e1, h1⟩ := x_split x
    refine sale (Ask.new p sender coll tok d) (.send s.config.feeManager [pay] :: pre) [] mb.recipient rfl
      (afterSale_asks _ _ _) (by rw [e1]; rfl) ?_ (by simp) (own hown)
    intro y hy
    rw [List.mem_cons] at hy
    rcases hy with rfl | hy
    · exact Or.inl ⟨_, _, rfl⟩
    · exact h1 y hy
  | updAsk id d a hf hd ha hcr hpr hm =>
    refine quiet ?_ (by simp)
    rintro c t ⟨id', a', h, h1, h2⟩
    simp only [AMap.get?_insert] at h
    split at h
    · cases h; exact ⟨id, a, ha, h1, h2⟩
    · exact ⟨id', a', h, h1, h2⟩
  | updSell id d a mb hf hd ha hcr hpr hmb x =>
    obtain ⟨pre, e1, h1⟩ := x_split x
    have hid := sid ha
    exact sale { a with details := d } pre [] mb.recipient hid (afterSale_asks _ _ _) e1 h1 (by simp)
      (fun _ _ => ⟨id, a, ha, rfl, rfl⟩)
  | rmAsk id a hf ha hcr =>
    exact sale a [] [] a.assetRecipient (sid ha) rfl rfl (by simp) (by simp) (fun _ _ => stored ha)
  | accAsk id d a fn left hd hn ha hpr hl x => exact buy a _ _ x left id ha (afterSale_asks _ _ _) rfl
  | restBid => exact quiet (fun _ _ h => h) (hsendrefund _)
  | buyBid m coll tok d fn left a hm hv hd htr hpr hn ha hl x =>
    exact buy a _ _ x left _ (bidMatch_some ha).1 (afterSale_asks _ _ _) rfl
  | updBid => exact quiet (fun _ _ h => h) (hsendrefund _)
  | updBuy id d b a fn fa left hd hb hcr hpr hn hadd ha hl x =>
    exact buy a _ _ x left _ (bidMatch_some ha).1 (afterSale_asks _ _ _) rfl
  | rmBid id b hf hb hcr => exact quiet (fun _ _ h => h) (by simp)
  | accBid id d b a hd hb hpr ha x =>
    obtain ⟨pre, e1, h1⟩ := x_split x
    rcases acceptor_cases ha with ⟨k1, _⟩ | ⟨_, k2, rfl⟩
    · exact sale a pre [] _ (sid k1) (afterSale_asks _ _ _) e1 h1 (by simp) (fun _ _ => stored k1)
    · exact sale _ pre [] _ rfl (afterSale_asks _ _ _) e1 h1 (by simp) (own k2)
  | restCBid => exact quiet (fun _ _ h => h) (hsendrefund _)
  | buyCBid m coll d fn left a hm hv hd htr hpr hn ha hl x =>
    obtain ⟨⟨n, k⟩, _⟩ := cbidMatch_some hlim ha
    exact buy a _ _ x left _ k (afterSale_asks _ _ _) rfl
  | updCBid => exact quiet (fun _ _ h => h) (hsendrefund _)
  | updCBuy id d b a fn fa left hd hb hcr hpr hn hadd ha hl x =>
    obtain ⟨⟨n, k⟩, _⟩ := cbidMatch_some hlim ha
    exact buy a _ _ x left _ k (afterSale_asks _ _ _) rfl
  | rmCBid => exact quiet (fun _ _ h => h) (by simp)
  | accCBid id tok d b a hd hb hpr ha x =>
    obtain ⟨pre, e1, h1⟩ := x_split x
    rcases acceptor_cases ha with ⟨k1, _⟩ | ⟨_, k2, rfl⟩
    · exact sale a pre [] _ (sid k1) (afterSale_asks _ _ _) e1 h1 (by simp) (fun _ _ => stored k1)
    · exact sale _ pre [] _ rfl (afterSale_asks _ _ _) e1 h1 (by simp) (own k2)

end
end Verif.V2

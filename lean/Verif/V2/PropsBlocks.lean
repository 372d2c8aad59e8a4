/-
Marketplace v2: the order of calls about different collections (C138).
-/
import Verif.V2.PropsAlone

set_option linter.unusedSectionVars false

namespace Verif.V2
open Verif Spec

section
variable {p : Params} {me : Addr}

/-! ### Specification -/

/-- A call waiting to be executed. -/
structure Spec.Tx where
  ctx : Ctx
  sender : Addr
  funds : List Coin
  msg : Exec

def Spec.Tx.run (p : Params) (c : Tx) (s : State) : Res (State × List Msg) := execute p c.ctx c.sender c.funds c.msg s

/-- What the caller sees: an error or the messages. -/
def Spec.reply (r : Res (State × List Msg)) : Res (List Msg) := r.map Prod.snd

/-- Same orders under the same ids, and everything else the same. -/
structure Spec.Alike (s t : State) : Prop where
  asks : ∀ k, s.asks.get? k = t.asks.get? k
  bids : ∀ k, s.bids.get? k = t.bids.get? k
  cbids : ∀ k, s.cbids.get? k = t.cbids.get? k
  denoms : ∀ k, s.collectionDenoms.get? k = t.collectionDenoms.get? k
  rest : { s with asks := t.asks, bids := t.bids, cbids := t.cbids, collectionDenoms := t.collectionDenoms } = t

/-- Calls that take a number for a new bid. -/
def Spec.Counts : Exec → Bool
  | .setBid _ _ _ | .buySpecificNft _ _ _ | .setCollectionBid _ _ | .buyCollectionNft _ _ | .acceptAsk _ _ => true
  | _ => false

/-- Calls of accounts other than the marketplace, to the marketplace. -/
def Spec.Tx.Proper (self : Addr) (c : Tx) : Prop := c.ctx.self = self ∧ c.sender ≠ self

/-- Expected: two calls about different collections can be swapped. -/
def C138_statement : Prop :=
  ∀ (p : Params) (me : Addr) (s s1 s12 : State) (a b : Tx) (ca cb : Addr) (ma mb : List Msg), 1 ≤ p.maxLimit → HashInj p → PrefixFree p →
    NoSlash p → Reach p me NoWrap s → NoWrap s → NoWrap s1 → NoWrap s12 → a.Proper me → b.Proper me →
    about s a.msg = some ca → about s b.msg = some cb → ca ≠ cb → a.run p s = .ok (s1, ma) → b.run p s1 = .ok (s12, mb) →
    ∃ s2 s21, b.run p s = .ok (s2, mb) ∧ a.run p s2 = .ok (s21, ma) ∧ Alike s21 s12

/-! ### The counter -/

def renum (n : Nat) (s : State) : State := { s with nonce := n }

theorem renum_sale (n : Nat) (ctx : Ctx) (s : State) (a : Ask) (c : Config) (mb : MatchingBid) (x : Bool) (r : List Msg) :
    finalizeSale p ctx (renum n s) a c mb x r = (finalizeSale p ctx s a c mb x r).map (fun y => (renum n y.1, y.2)) := by
  unfold finalizeSale
  simp only [map_bind]
  refine bind_same fun _ _ => bind_same fun _ _ => bind_same fun _ _ => bind_same fun _ _ => ?_
  cases mb <;> rfl

/-- A call that takes no number neither reads nor changes the counter. -/
theorem renum_still (n : Nat) {ctx : Ctx} {sender : Addr} {funds : List Coin} {m : Exec} {s : State} (hm : Counts m = false) :
    execute p ctx sender funds m (renum n s) = (execute p ctx sender funds m s).map (fun y => (renum n y.1, y.2)) := by
  have hset : ∀ (coll : Addr) (tok : Bytes) (d : Details) (now : Bool), executeSetAsk p ctx sender funds coll tok d now (renum n s) =
      (executeSetAsk p ctx sender funds coll tok d now s).map (fun y => (renum n y.1, y.2)) := by
    intro coll tok d now
    unfold executeSetAsk
    simp only [map_bind]
    refine bind_same fun _ _ => bind_same fun _ _ => bind_same fun _ _ => bind_same fun _ _ => bind_same fun _ _ => bind_same fun _ _ => ?_
    have e : (Ask.new p sender coll tok d).matchWithBid p (renum n s) = (Ask.new p sender coll tok d).matchWithBid p s := rfl
    rw [e]
    cases (Ask.new p sender coll tok d).matchWithBid p s with
    | some mb => exact renum_sale n _ _ _ _ _ _ _
    | none =>
      cases now with
      | true => rfl
      | false =>
        simp only [Bool.false_eq_true, if_false, map_bind]
        exact bind_same fun _ _ => rfl
  have fin : ∀ (x : Res (State × List Msg)) (left : List Coin),
      (x.map (fun y => (renum n y.1, y.2)) >>= fun r => (Except.ok (r.1, refund sender left r.2) : Res (State × List Msg))) =
      (x >>= fun r => .ok (r.1, refund sender left r.2)).map (fun y => (renum n y.1, y.2)) := by
    intro x left; cases x <;> rfl
  cases m with
  | setBid => cases hm
  | buySpecificNft => cases hm
  | setCollectionBid => cases hm
  | buyCollectionNft => cases hm
  | acceptAsk => cases hm
  | updateConfig c =>
    simp only [execute, executeUpdateConfig, map_bind]
    exact bind_same fun _ _ => bind_same fun _ _ => bind_same fun _ _ => rfl
  | updateCollectionDenom c d =>
    simp only [execute, executeUpdateCollectionDenom, map_bind]
    exact bind_same fun _ _ => bind_same fun _ _ => rfl
  | setListingFee f =>
    simp only [execute, executeSetListingFee, map_bind]
    exact bind_same fun _ _ => rfl
  | removeListingFee d =>
    simp only [execute, executeRemoveListingFee, map_bind]
    exact bind_same fun _ _ => rfl
  | setAsk coll tok d =>
    simp only [execute, map_bind]
    exact bind_same fun _ _ => bind_same fun _ _ => hset _ _ _ _
  | sellNft coll tok d =>
    simp only [execute, map_bind]
    exact bind_same fun _ _ => bind_same fun _ _ => hset _ _ _ _
  | removeAsk id =>
    simp only [execute, executeRemoveAsk, map_bind]
    exact bind_same fun _ _ => bind_same fun _ _ => bind_same fun _ _ => rfl
  | removeBid id =>
    simp only [execute, executeRemoveBid, map_bind]
    exact bind_same fun _ _ => bind_same fun _ _ => bind_same fun _ _ => rfl
  | removeCollectionBid id =>
    simp only [execute, executeRemoveCollectionBid, map_bind]
    exact bind_same fun _ _ => bind_same fun _ _ => bind_same fun _ _ => rfl
  | updateAsk id d =>
    simp only [execute, executeUpdateAsk, map_bind]
    refine bind_same fun d _ => bind_same fun _ _ => bind_same fun a _ => bind_same fun _ _ => bind_same fun _ _ => ?_
    have e : ({ a with details := d } : Ask).matchWithBid p (renum n s) = ({ a with details := d } : Ask).matchWithBid p s := rfl
    rw [e]
    cases ({ a with details := d } : Ask).matchWithBid p s with
    | some mb => exact renum_sale n _ _ _ _ _ _ _
    | none => rfl
  | updateBid id d =>
    simp only [execute, executeUpdateBid, map_bind]
    refine bind_same fun d _ => bind_same fun b _ => bind_same fun _ _ => bind_same fun _ _ => bind_same fun _ _ => bind_same fun _ _ => ?_
    have e : ({ b with details := d } : Bid).matchWithAsk p (renum n s) = ({ b with details := d } : Bid).matchWithAsk p s := rfl
    rw [e]
    cases ({ b with details := d } : Bid).matchWithAsk p s with
    | some a =>
      simp only [map_bind]
      refine bind_same fun left _ => ?_
      refine (congrArg (fun x => x >>= fun r => .ok (r.1, refund sender left r.2)) (renum_sale n _ _ _ _ _ _ _)).trans ?_
      exact (fin _ _).trans (map_bind _ _ _)
    | none =>
      simp only [map_bind]
      exact bind_same fun _ _ => rfl
  | updateCollectionBid id d =>
    simp only [execute, executeUpdateCollectionBid, map_bind]
    refine bind_same fun d _ => bind_same fun b _ => bind_same fun _ _ => bind_same fun _ _ => bind_same fun _ _ => bind_same fun _ _ => ?_
    refine bind_same fun x _ => ?_
    cases x with
    | some a =>
      simp only [map_bind]
      refine bind_same fun left _ => ?_
      refine (congrArg (fun x => x >>= fun r => .ok (r.1, refund sender left r.2)) (renum_sale n _ _ _ _ _ _ _)).trans ?_
      exact (fin _ _).trans (map_bind _ _ _)
    | none =>
      simp only [map_bind]
      exact bind_same fun _ _ => rfl
  | acceptBid id d =>
    simp only [execute, executeAcceptBid, map_bind]
    refine bind_same fun d _ => bind_same fun b _ => bind_same fun _ _ => bind_same fun a _ => ?_
    exact renum_sale n _ _ _ _ _ _ _
  | acceptCollectionBid id tok d =>
    simp only [execute, executeAcceptCollectionBid, map_bind]
    refine bind_same fun d _ => bind_same fun b _ => bind_same fun _ _ => bind_same fun a _ => ?_
    exact renum_sale n _ _ _ _ _ _ _

/-- The messages of a sale do not depend on the number of the bid. -/
theorem reply_sale (ctx : Ctx) (s t : State) (a : Ask) (c : Config) {mb mb' : MatchingBid} (hr : mb.recipient = mb'.recipient)
    (hd : mb.details = mb'.details) (x : Bool) (r : List Msg) :
    reply (finalizeSale p ctx s a c mb x r) = reply (finalizeSale p ctx t a c mb' x r) := by
  unfold finalizeSale reply saleTerms
  rw [hd, hr]
  simp only [map_bind]
  exact bind_same fun _ _ => bind_same fun _ _ => bind_same fun _ _ => bind_same fun _ _ => rfl

theorem reply_refund {x y : Res (State × List Msg)} (h : reply x = reply y) (sender : Addr) (left : List Coin) :
    reply (x >>= fun r => .ok (r.1, refund sender left r.2)) = reply (y >>= fun r => .ok (r.1, refund sender left r.2)) := by
  cases x with
  | error e =>
    cases y with
    | error e' => cases h; rfl
    | ok y => cases h
  | ok x =>
    cases y with
    | error e' => cases h
    | ok y =>
      have : x.2 = y.2 := Except.ok.inj h
      show Except.ok (refund sender left x.2) = Except.ok (refund sender left y.2)
      rw [this]

/-- The reply to a call does not depend on the counter, if neither number has been used. -/
theorem reply_renum (n : Nat) {ctx : Ctx} {sender : Addr} {funds : List Coin} {m : Exec} {s : State}
    (hB : ∀ coll tok d, s.bids.get? (Bid.new p sender coll tok d ctx.height (nextNonce s)).id = none)
    (hB' : ∀ coll tok d, s.bids.get? (Bid.new p sender coll tok d ctx.height (nextNonce (renum n s))).id = none)
    (hC : ∀ coll d, s.cbids.get? (CBid.new p sender coll d ctx.height (nextNonce s)).id = none)
    (hC' : ∀ coll d, s.cbids.get? (CBid.new p sender coll d ctx.height (nextNonce (renum n s))).id = none) :
    reply (execute p ctx sender funds m (renum n s)) = reply (execute p ctx sender funds m s) := by
  have hbid : ∀ (coll : Addr) (tok : Bytes) (d : Details) (now : Bool), reply (executeSetBid p ctx sender funds coll tok d now (renum n s)) =
      reply (executeSetBid p ctx sender funds coll tok d now s) := by
    intro coll tok d now
    unfold executeSetBid
    simp only [reply, map_bind]
    refine bind_same fun _ _ => bind_same fun _ _ => bind_same fun _ _ => ?_
    have e : (Bid.new p sender coll tok d ctx.height (nextNonce (renum n s))).matchWithAsk p
        { renum n s with nonce := nextNonce (renum n s) } =
        (Bid.new p sender coll tok d ctx.height (nextNonce s)).matchWithAsk p { s with nonce := nextNonce s } := rfl
    rw [e]
    cases (Bid.new p sender coll tok d ctx.height (nextNonce s)).matchWithAsk p { s with nonce := nextNonce s } with
    | some a =>
      simp only [map_bind]
      refine bind_same fun left _ => ?_
      have := reply_refund (reply_sale (p := p) ctx { renum n s with nonce := nextNonce (renum n s) } { s with nonce := nextNonce s } a
        s.config (mb := .bid (Bid.new p sender coll tok d ctx.height (nextNonce (renum n s)))) (mb' := .bid (Bid.new p sender coll tok d ctx.height (nextNonce s))) rfl rfl true []) sender left
      simp only [reply, map_bind] at this
      exact this
    | none =>
      cases now with
      | true => rfl
      | false =>
        simp only [Bool.false_eq_true, if_false, map_bind]
        refine bind_same fun left _ => ?_
        have e1 : ensure (s.bids.get? (Bid.new p sender coll tok d ctx.height (nextNonce (renum n s))).id = none) .internal = .ok () :=
          ensure_eq (hB' _ _ _)
        have e2 : ensure (s.bids.get? (Bid.new p sender coll tok d ctx.height (nextNonce s)).id = none) .internal = .ok () :=
          ensure_eq (hB _ _ _)
        refine (congrArg (fun x => x >>= _) e1).trans (Eq.trans ?_ (congrArg (fun x => x >>= _) e2).symm)
        rfl
  have hcbid : ∀ (coll : Addr) (d : Details) (now : Bool), reply (executeSetCollectionBid p ctx sender funds coll d now (renum n s)) =
      reply (executeSetCollectionBid p ctx sender funds coll d now s) := by
    intro coll d now
    unfold executeSetCollectionBid
    simp only [reply, map_bind]
    refine bind_same fun _ _ => bind_same fun _ _ => bind_same fun _ _ => ?_
    refine bind_same (x := (CBid.new p sender coll d ctx.height (nextNonce s)).matchWithAsk p { s with nonce := nextNonce s }) fun x _ => ?_
    cases x with
    | some a =>
      simp only [map_bind]
      refine bind_same fun left _ => ?_
      have := reply_refund (reply_sale (p := p) ctx { renum n s with nonce := nextNonce (renum n s) } { s with nonce := nextNonce s } a
        s.config (mb := .cbid (CBid.new p sender coll d ctx.height (nextNonce (renum n s)))) (mb' := .cbid (CBid.new p sender coll d ctx.height (nextNonce s))) rfl rfl true []) sender left
      simp only [reply, map_bind] at this
      exact this
    | none =>
      cases now with
      | true => rfl
      | false =>
        simp only [Bool.false_eq_true, if_false, map_bind]
        refine bind_same fun left _ => ?_
        have e1 : ensure (s.cbids.get? (CBid.new p sender coll d ctx.height (nextNonce (renum n s))).id = none) .internal = .ok () :=
          ensure_eq (hC' _ _)
        have e2 : ensure (s.cbids.get? (CBid.new p sender coll d ctx.height (nextNonce s)).id = none) .internal = .ok () :=
          ensure_eq (hC _ _)
        refine (congrArg (fun x => x >>= _) e1).trans (Eq.trans ?_ (congrArg (fun x => x >>= _) e2).symm)
        rfl
  by_cases hm : Counts m = false
  · rw [renum_still n hm]
    cases execute p ctx sender funds m s <;> rfl
  · cases m <;> try exact absurd rfl hm
    case setBid coll tok d =>
      simp only [execute, reply, map_bind]
      exact bind_same fun _ _ => bind_same fun _ _ => hbid _ _ _ _
    case buySpecificNft coll tok d =>
      simp only [execute, reply, map_bind]
      exact bind_same fun _ _ => bind_same fun _ _ => hbid _ _ _ _
    case setCollectionBid coll d =>
      simp only [execute, reply, map_bind]
      exact bind_same fun _ _ => bind_same fun _ _ => hcbid _ _ _
    case buyCollectionNft coll d =>
      simp only [execute, reply, map_bind]
      exact bind_same fun _ _ => bind_same fun _ _ => hcbid _ _ _
    case acceptAsk id d =>
      simp only [execute, executeAcceptAsk, reply, map_bind]
      refine bind_same fun d _ => bind_same fun _ _ => bind_same fun a _ => bind_same fun _ _ => bind_same fun left _ => ?_
      have := reply_refund (reply_sale (p := p) ctx { renum n s with nonce := nextNonce (renum n s) } { s with nonce := nextNonce s } a
        s.config (mb := .bid (Bid.new p sender a.collection a.tokenId d ctx.height (nextNonce (renum n s)))) (mb' := .bid (Bid.new p sender a.collection a.tokenId d ctx.height (nextNonce s))) rfl rfl true []) sender left
      simp only [reply, map_bind] at this
      exact this

/-- What a call does to the counter. -/
theorem counter {ctx : Ctx} {sender : Addr} {funds : List Coin} {m : Exec} {s s' : State} {msgs : List Msg}
    (h : execute p ctx sender funds m s = .ok (s', msgs)) : s'.nonce = if Counts m = true then nextNonce s else s.nonce := by
  cases execute_eff h with
  | sellAsk _ coll tok d pay mb hm => rcases hm with rfl | rfl <;> simp [Counts]
  | buyBid _ coll tok d fn left a hm => rcases hm with rfl | rfl <;> simp [Counts, bump]
  | buyCBid _ coll d fn left a hm => rcases hm with rfl | rfl <;> simp [Counts, bump]
  | _ => simp [Counts, bump]

theorem keep_some {K V : Type} [DecidableEq K] {m : AMap K V} {q : K → V → Bool} {k : K} {v : V} (h : (m.keep q).get? k = some v) :
    m.get? k = some v ∧ q k v = true := by
  rw [AMap.get?_keep] at h
  exact Option.filter_eq_some_iff.mp h

/-! ### States that agree on every collection -/

theorem alike_of {s t : State} (h : ∀ c, only c s = only c t) : Alike s t := by
  have key : ∀ {V : Type} {K : Type} [DecidableEq K] (f : V → Addr) (x y : AMap K V),
      (∀ c, x.keep (fun _ v => decide (f v = c)) = y.keep (fun _ v => decide (f v = c))) → ∀ k, x.get? k = y.get? k := by
    intro V K _ f x y h k
    cases hx : x.get? k with
    | some v =>
      have h1 : (x.keep (fun _ w => decide (f w = f v))).get? k = some v := by
        rw [AMap.get?_keep_pos (fun w hw => by rw [hx] at hw; cases hw; exact decide_eq_true rfl), hx]
      rw [h] at h1
      exact (keep_some h1).1.symm
    | none =>
      cases hy : y.get? k with
      | none => rfl
      | some v =>
        have h1 : (y.keep (fun _ w => decide (f w = f v))).get? k = some v := by
          rw [AMap.get?_keep_pos (fun w hw => by rw [hy] at hw; cases hw; exact decide_eq_true rfl), hy]
        rw [← h] at h1
        rw [(keep_some h1).1] at hx; cases hx
  refine ⟨?_, ?_, ?_, ?_, ?_⟩
  · exact key Ask.collection _ _ fun c => congrArg State.asks (h c)
  · exact key Bid.collection _ _ fun c => congrArg State.bids (h c)
  · exact key CBid.collection _ _ fun c => congrArg State.cbids (h c)
  · intro k
    have h1 : ∀ u : State, (only k u).collectionDenoms.get? k = u.collectionDenoms.get? k := fun u =>
      AMap.get?_keep_pos fun _ _ => decide_eq_true rfl
    rw [← h1 s, h k, h1 t]
  · exact congrArg (fun u : State => { u with asks := t.asks, bids := t.bids, cbids := t.cbids, collectionDenoms := t.collectionDenoms }) (h [])

theorem about_renum {s : State} {c : Addr} {m : Exec} {c' : Addr} {n : Nat} (hm : about s m = some c) {s1 : State}
    (e : only c s1 = renum n (only c s)) (h : c' = c) : about s1 m = some c' := by
  subst h
  have h1 := about_only hm
  have hasks : (only c' s1).asks = (only c' s).asks := by rw [e]; rfl
  have hbids : (only c' s1).bids = (only c' s).bids := by rw [e]; rfl
  have hcbids : (only c' s1).cbids = (only c' s).cbids := by rw [e]; rfl
  have hmap : ∀ {α β : Type} {o : Option α} {f : α → β} {b : β}, o.map f = some b → ∃ a, o = some a ∧ f a = b := by
    intro α β o f b h
    cases o with
    | none => cases h
    | some a => exact ⟨a, rfl, Option.some.inj h⟩
  cases m <;> try exact hm
  all_goals obtain ⟨a, ha, hc⟩ := hmap h1
  all_goals first
    | (rw [← hasks] at ha; rw [about, (keep_some ha).1]; exact congrArg some hc)
    | (rw [← hbids] at ha; rw [about, (keep_some ha).1]; exact congrArg some hc)
    | (rw [← hcbids] at ha; rw [about, (keep_some ha).1]; exact congrArg some hc)

/-! ### Properties -/

section
variable (hlim : 1 ≤ p.maxLimit) (hinj : HashInj p) (hpf : PrefixFree p) (hns : NoSlash p) {s s1 : State} (hr : Reach p me NoWrap s)
  (hg : NoWrap s) (hg1 : NoWrap s1) {a b : Tx} (ha : a.Proper me) {ca cb : Addr} (hma : about s a.msg = some ca)
  (hmb : about s b.msg = some cb) (hne : ca ≠ cb) {ma : List Msg} (h1 : a.run p s = .ok (s1, ma))
include hlim hinj hpf hns hr hg hg1 ha hma hmb hne h1

theorem step_other : only cb s1 = renum s1.nonce (only cb s) := C122_others hlim hinj hpf hns hr hg hma hne h1

theorem step_about : about s1 b.msg = some cb := about_renum hmb (step_other hlim hinj hpf hns hr hg hg1 ha hma hmb hne h1) rfl

/-- The part that holds: the reply to a call (its error, or its messages and so what is paid and which tokens move) is the same whether a
call about another collection is executed before it or not. -/
theorem C138_partial_reply : reply (b.run p s1) = reply (b.run p s) := by
  have hr1 : Reach p me NoWrap s1 := .call hr hg ha.1 ha.2 h1
  have e := step_other hlim hinj hpf hns hr hg hg1 ha hma hmb hne h1
  have hm1 := step_about hlim hinj hpf hns hr hg hg1 ha hma hmb hne h1
  have x0 := C122_alone (ctx := b.ctx) (sender := b.sender) (funds := b.funds) hinj hpf hns hr hg hmb
  have x1 := C122_alone (ctx := b.ctx) (sender := b.sender) (funds := b.funds) hinj hpf hns hr1 hg1 hm1
  have hrep : ∀ (c : Addr) (r : Res (State × List Msg)), reply (onlyRes c r) = reply r := by intro c r; cases r <;> rfl
  have y0 := (congrArg reply x0).trans (hrep cb _)
  have y1 := (congrArg reply x1).trans (hrep cb _)
  show reply (execute p b.ctx b.sender b.funds b.msg s1) = reply (execute p b.ctx b.sender b.funds b.msg s)
  rw [← y0, ← y1, e]
  have none_keep : ∀ {K V : Type} [DecidableEq K] {m : AMap K V} {q : K → V → Bool} {k : K}, m.get? k = none → (m.keep q).get? k = none := by
    intro K V _ m q k h
    rw [AMap.get?_keep, h]; rfl
  have eb : (only cb s).bids = (only cb s1).bids := by rw [e]; rfl
  have ec : (only cb s).cbids = (only cb s1).cbids := by rw [e]; rfl
  refine reply_renum s1.nonce ?_ ?_ ?_ ?_
  · intro coll tok d
    exact none_keep (fresh_bid (Spec.Reach.nonce hr) hinj hg _ _ _ _ _)
  · intro coll tok d
    rw [eb]
    exact none_keep (fresh_bid (Spec.Reach.nonce hr1) hinj hg1 _ _ _ _ _)
  · intro coll d
    exact none_keep (fresh_cbid (Spec.Reach.nonce hr) hinj hg _ _ _ _)
  · intro coll d
    rw [ec]
    exact none_keep (fresh_cbid (Spec.Reach.nonce hr1) hinj hg1 _ _ _ _)

end

theorem reply_ok {r : Res (State × List Msg)} {ms : List Msg} (h : reply r = .ok ms) : ∃ s, r = .ok (s, ms) := by
  cases r with
  | error e => cases h
  | ok x =>
    have : x.2 = ms := Except.ok.inj h
    exact ⟨x.1, by rw [← this]⟩

theorem renum_self (s : State) : renum s.nonce s = s := rfl

/-- How a call's own collection ends up after a call about another one. -/
theorem own_part (hlim : 1 ≤ p.maxLimit) (hinj : HashInj p) (hpf : PrefixFree p) (hns : NoSlash p) {s s1 s12 s2 : State}
    (hr : Reach p me NoWrap s) (hg : NoWrap s) (hg1 : NoWrap s1) {a b : Tx} (ha : a.Proper me) {ca cb : Addr}
    (hma : about s a.msg = some ca) (hmb : about s b.msg = some cb) (hne : ca ≠ cb) {ma mb mb' : List Msg} (h1 : a.run p s = .ok (s1, ma))
    (h2 : b.run p s1 = .ok (s12, mb)) (h3 : b.run p s = .ok (s2, mb')) (hc : Counts a.msg = false ∨ Counts b.msg = false) :
    only cb s12 = renum s12.nonce (only cb s2) := by
  have hr1 : Reach p me NoWrap s1 := .call hr hg ha.1 ha.2 h1
  have e := step_other hlim hinj hpf hns hr hg hg1 ha hma hmb hne h1
  have hm1 := step_about hlim hinj hpf hns hr hg hg1 ha hma hmb hne h1
  have x0 := C122_alone (ctx := b.ctx) (sender := b.sender) (funds := b.funds) hinj hpf hns hr hg hmb
  have x1 := C122_alone (ctx := b.ctx) (sender := b.sender) (funds := b.funds) hinj hpf hns hr1 hg1 hm1
  rw [show execute p b.ctx b.sender b.funds b.msg s = .ok (s2, mb') from h3] at x0
  rw [show execute p b.ctx b.sender b.funds b.msg s1 = .ok (s12, mb) from h2, e] at x1
  have n1 := counter h1
  have n12 := counter h2
  cases hcb : Counts b.msg with
  | false =>
    rw [renum_still _ hcb, x0] at x1
    have h4 : (renum s1.nonce (only cb s2), mb') = (only cb s12, mb) := Except.ok.inj x1
    injection h4 with h5 _
    rw [hcb] at n12
    rw [← h5, n12]; rfl
  | true =>
    have hca : Counts a.msg = false := by
      rcases hc with h | h
      · exact h
      · rw [hcb] at h; cases h
    rw [hca] at n1
    have : renum s1.nonce (only cb s) = only cb s := by rw [n1]; rfl
    rw [this, x0] at x1
    have h4 : (only cb s2, mb') = (only cb s12, mb) := Except.ok.inj x1
    injection h4 with h5 _
    rw [h5]; rfl

/-- The part that holds for what is stored: if at most one of the two calls makes a bid or accepts a listing (which takes a number from the
counter), they can be swapped. -/
theorem C138_partial (hlim : 1 ≤ p.maxLimit) (hinj : HashInj p) (hpf : PrefixFree p) (hns : NoSlash p) {s s1 s12 : State}
    (hr : Reach p me NoWrap s) (hg : NoWrap s) (hg1 : NoWrap s1) (hg12 : NoWrap s12) {a b : Tx} (ha : a.Proper me) (hb : b.Proper me) {ca cb : Addr}
    (hma : about s a.msg = some ca) (hmb : about s b.msg = some cb) (hne : ca ≠ cb) {ma mb : List Msg} (h1 : a.run p s = .ok (s1, ma))
    (h2 : b.run p s1 = .ok (s12, mb)) (hc : Counts a.msg = false ∨ Counts b.msg = false) :
    ∃ s2 s21, b.run p s = .ok (s2, mb) ∧ a.run p s2 = .ok (s21, ma) ∧ Alike s21 s12 := by
  have hr1 : Reach p me NoWrap s1 := .call hr hg ha.1 ha.2 h1
  obtain ⟨s2, h3⟩ : ∃ s2, b.run p s = .ok (s2, mb) := by
    refine reply_ok ?_
    rw [← C138_partial_reply hlim hinj hpf hns hr hg hg1 ha hma hmb hne h1, h2]; rfl
  have hr2 : Reach p me NoWrap s2 := .call hr hg hb.1 hb.2 h3
  have n1 := counter h1
  have n2 := counter h3
  have n12 := counter h2
  have hg2 : NoWrap s2 := by
    unfold NoWrap at *
    rw [n2]
    split
    · rename_i hcb
      have hca : Counts a.msg = false := by
        rcases hc with h | h
        · exact h
        · rw [hcb] at h; cases h
      rw [hca] at n1
      rw [hcb] at n12
      have e : nextNonce s1 = nextNonce s := by unfold nextNonce; rw [n1]; rfl
      rw [← e, ← show s12.nonce = nextNonce s1 from n12]; exact hg12
    · exact hg
  obtain ⟨s21, h4⟩ : ∃ s21, a.run p s2 = .ok (s21, ma) := by
    refine reply_ok ?_
    rw [C138_partial_reply hlim hinj hpf hns hr hg hg2 hb hmb hma hne.symm h3, h1]; rfl
  have n21 := counter h4
  have hnn : s21.nonce = s12.nonce := by
    rw [n21, n12]
    unfold nextNonce
    rw [n1, n2]
    unfold nextNonce
    rcases hc with h | h <;> rw [h] <;> simp
  refine ⟨s2, s21, h3, h4, alike_of fun c => ?_⟩
  have hm1 := step_about hlim hinj hpf hns hr hg hg1 ha hma hmb hne h1
  have hm2 := step_about hlim hinj hpf hns hr hg hg2 hb hmb hma hne.symm h3
  have ren : ∀ {x y : State} {n : Nat}, x = renum n y → renum n x = x := by rintro x y n rfl; rfl
  by_cases hcb : cb = c
  · subst hcb
    have e12 := own_part hlim hinj hpf hns hr hg hg1 ha hma hmb hne h1 h2 h3 hc
    have e21 : only cb s21 = renum s21.nonce (only cb s2) := C122_others hlim hinj hpf hns hr2 hg2 hm2 hne h4
    rw [e12, e21, hnn]
  · by_cases hca : ca = c
    · subst hca
      have e21 := own_part hlim hinj hpf hns hr hg hg2 hb hmb hma hne.symm h3 h4 h1 hc.symm
      have e12 : only ca s12 = renum s12.nonce (only ca s1) := C122_others hlim hinj hpf hns hr1 hg1 hm1 hne.symm h2
      rw [e12, e21, hnn]
    · have e1 : only c s1 = renum s1.nonce (only c s) := C122_others hlim hinj hpf hns hr hg hma hca h1
      have e2 : only c s2 = renum s2.nonce (only c s) := C122_others hlim hinj hpf hns hr hg hmb hcb h3
      have e12 : only c s12 = renum s12.nonce (only c s1) := C122_others hlim hinj hpf hns hr1 hg1 hm1 hcb h2
      have e21 : only c s21 = renum s21.nonce (only c s2) := C122_others hlim hinj hpf hns hr2 hg2 hm2 hca h4
      rw [e12, e21, e1, e2, hnn]; rfl

namespace Sample
/-- Bob bids on a token of one collection, carol on a token of another; alice withdraws the listing. -/
def txB : Tx := ⟨ctx (some self), bob, [⟨ust, 80⟩], .setBid coll tok (det 80)⟩
def txC : Tx := ⟨ctx (some self), carol, [⟨ust, 70⟩], .setBid coll2 tok (det 70)⟩
def txR : Tx := ⟨ctx (some self), alice, [], .removeAsk aid⟩
def after (c : Tx) (s : State) : State := (run c.ctx c.sender c.funds c.msg s).1
def fine (c : Tx) (s : State) : Bool := ok c.ctx c.sender c.funds c.msg s
theorem fine_eq {c : Tx} {s : State} (h : fine c s = true) :
    c.run P s = .ok (after c s, (run c.ctx c.sender c.funds c.msg s).2) := run_eq h

/-- The number bob's bid gets, and with it the id that bob needs to withdraw it, depends on whether carol was faster. -/
def bidId : Bytes := (Bid.new P bob coll tok (det 80) 7 1).id
example : fine txB s2 = true ∧ fine txC (after txB s2) = true ∧ fine txC s2 = true ∧ fine txB (after txC s2) = true ∧
    ((after txC (after txB s2)).bids.get? bidId).isSome = true ∧ ((after txB (after txC s2)).bids.get? bidId).isSome = false ∧
    ok (ctx (some self)) bob [] (.removeBid bidId) (after txC (after txB s2)) = true ∧
    ok (ctx (some self)) bob [] (.removeBid bidId) (after txB (after txC s2)) = false := by
  refine ⟨by decide +kernel, by decide +kernel, by decide +kernel, by decide +kernel, by decide +kernel, by decide +kernel, by decide +kernel, by decide +kernel⟩

example := C138_partial_reply (a := txB) (b := txC) (ca := coll) (cb := coll2) (by decide) hashInj prefixFree noSlash r2 (by decide +kernel)
  (by decide +kernel) ⟨rfl, by decide⟩ rfl rfl (by decide) (fine_eq (c := txB) (by decide +kernel))
example := C138_partial (a := txR) (b := txC) (ca := coll) (cb := coll2) (by decide) hashInj prefixFree noSlash r2 (by decide +kernel)
  (by decide +kernel) (by decide +kernel) ⟨rfl, by decide⟩ ⟨rfl, by decide⟩ (by decide +kernel) rfl (by decide) (fine_eq (c := txR) (by decide +kernel))
  (fine_eq (c := txC) (by decide +kernel)) (.inl rfl)
end Sample

/-- Two bids on different collections, in different order, end up under different ids. -/
theorem C138_violated : ¬ C138_statement := by
  intro h
  obtain ⟨s2, s21, h1, h2, h3⟩ := h Sample.P Sample.self Sample.s2 _ _ Sample.txB Sample.txC Sample.coll Sample.coll2 _ _ (by decide)
    Sample.hashInj Sample.prefixFree Sample.noSlash Sample.r2 (by decide +kernel) (by decide +kernel) (by decide +kernel) ⟨rfl, by decide⟩
    ⟨rfl, by decide⟩ rfl rfl (by decide) (Sample.fine_eq (c := Sample.txB) (by decide +kernel))
    (Sample.fine_eq (c := Sample.txC) (by decide +kernel))
  rw [Sample.fine_eq (c := Sample.txC) (s := Sample.s2) (by decide +kernel)] at h1
  obtain ⟨rfl, _⟩ := Prod.mk.inj (Except.ok.inj h1)
  rw [Sample.fine_eq (c := Sample.txB) (s := Sample.after Sample.txC Sample.s2) (by decide +kernel)] at h2
  obtain ⟨rfl, _⟩ := Prod.mk.inj (Except.ok.inj h2)
  have := congrArg Option.isSome (h3.bids Sample.bidId)
  revert this
  decide +kernel

end
end Verif.V2

/-
Marketplace v1: a bid that has expired: C167.
-/
import Verif.V1.PropsAlone
import Verif.V1.PropsSale

namespace Verif.V1
open Verif Spec

namespace Spec
/-- The marketplace without one bid. -/
def lessBid (k : BidKey) (s : State) : State := { s with bids := s.bids.erase k }
/-- The marketplace without one collection bid. -/
def lessCBid (k : CBidKey) (s : State) : State := { s with cbids := s.cbids.erase k }

/-- What a call does, if it succeeds. -/
def done (x : Res (State × List Msg)) : Option (State × List Msg) :=
  match x with
  | .ok r => some r
  | .error _ => none

/-- The calls by which a bid is replaced, withdrawn, rejected or cleaned up. -/
def handlesBid (k : BidKey) (sender : Addr) : Exec → Prop
  | .setBid c t _ _ _ _ | .buyNow c t _ _ _ | .buyFor c t _ _ _ _ | .removeBid c t => (c, t, sender) = k
  | .rejectBid c t b | .removeStaleBid c t b => (c, t, b) = k
  | _ => False

/-- The same for a collection bid. -/
def handlesCBid (k : CBidKey) (sender : Addr) : Exec → Prop
  | .setCollectionBid c _ _ | .removeCollectionBid c => (c, sender) = k
  | .removeStaleCollectionBid c b => (c, b) = k
  | _ => False
end Spec

section
variable {p : Params} {me : Addr}

theorem keep_all {K V : Type} [DecidableEq K] (m : AMap K V) : m.keep (fun _ _ => true) = m := by
  cases m; simp only [AMap.keep, AMap.mk.injEq]; exact List.filter_eq_self.mpr (fun _ _ => rfl)

theorem keep_others {K V : Type} [DecidableEq K] (m : AMap K V) (k : K) : m.keep (fun x _ => decide (x ≠ k)) = m.erase k := by
  cases m; simp [AMap.keep, AMap.erase]

def butBid (k : BidKey) : Region := ⟨fun _ => true, fun x => decide (x ≠ k), fun _ => true⟩
def butCBid (k : CBidKey) : Region := ⟨fun _ => true, fun _ => true, fun x => decide (x ≠ k)⟩

theorem only_butBid (k : BidKey) (s : State) : only (butBid k) s = lessBid k s := by
  simp only [only, butBid, lessBid, keep_all, keep_others]
theorem only_butCBid (k : CBidKey) (s : State) : only (butCBid k) s = lessCBid k s := by
  simp only [only, butCBid, lessCBid, keep_all, keep_others]

theorem done_map (r : Region) (x : Res (State × List Msg)) : done (onlyRes r x) = (done x).map (fun y => (only r y.1, y.2)) := by
  cases x <;> rfl

theorem done_none {x : Res (State × List Msg)} (h : ∀ s m, x ≠ .ok (s, m)) : done x = none := by
  cases x with
  | error => rfl
  | ok r => exact absurd rfl (h r.1 r.2)

/-- Once a bid has expired, every call but those that replace, withdraw, reject or clean up that bid succeeds or fails, and does to the rest,
what it would if the bid were not there. In particular the bid cannot be accepted. -/
theorem C167_bid {s : State} {k : BidKey} {b : Bid} (hb : s.bids.get? k = some b) {ctx : Ctx} (he : b.expiresAt ≤ ctx.time)
    {sender : Addr} {funds : List Coin} {m : Exec} (hm : ¬ handlesBid k sender m) :
    done (execute p ctx sender funds m (lessBid k s)) = (done (execute p ctx sender funds m s)).map (fun r => (lessBid k r.1, r.2)) := by
  by_cases hn : namesBid sender m = some k
  · have h1 : done (execute p ctx sender funds m s) = none := by
      refine done_none fun s' ms h => ?_
      cases m <;> first | cases hn | skip
      all_goals first | exact hm rfl | skip
      cases execute_eff h with
      | acceptBid _ _ _ _ _ _ _ _ _ _ hb' hl =>
        cases hb.symm.trans hb'
        omega
      | bidSaved _ _ _ hm => cases hm
      | bought _ _ _ _ _ hm => cases hm
    have h2 : done (execute p ctx sender funds m (lessBid k s)) = none := by
      refine done_none fun s' ms h => ?_
      cases m <;> first | cases hn | skip
      all_goals first | exact hm rfl | skip
      cases execute_eff h with
      | acceptBid _ _ _ _ _ _ _ _ _ _ hb' hl =>
        simp [lessBid] at hb'
      | bidSaved _ _ _ hm => cases hm
      | bought _ _ _ _ _ hm => cases hm
    rw [h1, h2]; rfl
  · have := C124_local (p := p) (s := s) (ctx := ctx) (funds := funds) (r := butBid k) (sender := sender) (m := m)
      ⟨fun _ _ => rfl, fun x hx => decide_eq_true (fun e => hn (e ▸ hx)), fun _ _ => rfl⟩
    rw [← only_butBid, this, done_map]
    simp only [only_butBid]

/-- The same for a collection bid. -/
theorem C167_collection {s : State} {k : CBidKey} {b : CBid} (hb : s.cbids.get? k = some b) {ctx : Ctx} (he : b.expiresAt ≤ ctx.time)
    {sender : Addr} {funds : List Coin} {m : Exec} (hm : ¬ handlesCBid k sender m) :
    done (execute p ctx sender funds m (lessCBid k s)) = (done (execute p ctx sender funds m s)).map (fun r => (lessCBid k r.1, r.2)) := by
  by_cases hn : namesCBid sender m = some k
  · have h1 : done (execute p ctx sender funds m s) = none := by
      refine done_none fun s' ms h => ?_
      cases m <;> first | cases hn | skip
      all_goals first | exact hm rfl | skip
      cases execute_eff h with
      | acceptCBid _ _ _ _ _ _ _ _ _ _ hb' hl =>
        cases hb.symm.trans hb'
        omega
      | bidSaved _ _ _ hm => cases hm
      | bought _ _ _ _ _ hm => cases hm
    have h2 : done (execute p ctx sender funds m (lessCBid k s)) = none := by
      refine done_none fun s' ms h => ?_
      cases m <;> first | cases hn | skip
      all_goals first | exact hm rfl | skip
      cases execute_eff h with
      | acceptCBid _ _ _ _ _ _ _ _ _ _ hb' hl =>
        simp [lessCBid] at hb'
      | bidSaved _ _ _ hm => cases hm
      | bought _ _ _ _ _ hm => cases hm
    rw [h1, h2]; rfl
  · have := C124_local (p := p) (s := s) (ctx := ctx) (funds := funds) (r := butCBid k) (sender := sender) (m := m)
      ⟨fun _ _ => rfl, fun _ _ => rfl, fun x hx => decide_eq_true (fun e => hn (e ▸ hx))⟩
    rw [← only_butCBid, this, done_map]
    simp only [only_butCBid]

/-! ### The bidder's own calls -/

theorem setBid_again {s : State} {coll : Addr} {tok : Nat} {sender : Addr} {b : Bid} (hb : s.bids.get? (coll, tok, sender) = some b) {ctx : Ctx}
    {funds : List Coin} {expires : Nat} {finder : Option Addr} {fee : Option Nat} {recipient : Option Addr} {buyNow : Bool} :
    executeSetBid ctx sender funds coll tok expires finder fee recipient buyNow s =
      (executeSetBid ctx sender funds coll tok expires finder fee recipient buyNow (lessBid (coll, tok, sender) s)).map
        (fun r => (r.1, .send sender [⟨NATIVE, b.price⟩] :: r.2)) := by
  have e1 : refundOld coll tok sender s = (lessBid (coll, tok, sender) s, [.send sender [⟨NATIVE, b.price⟩]]) := by
    simp only [refundOld, hb, lessBid]
  have e2 : refundOld coll tok sender (lessBid (coll, tok, sender) s) = (lessBid (coll, tok, sender) s, []) := by
    simp [refundOld, lessBid]
  simp only [executeSetBid, e1, e2, map_bind]
  refine bind_same fun _ _ => bind_same fun _ _ => bind_same fun price _ => bind_same fun _ _ => bind_same fun _ _ => ?_
  generalize lessBid (coll, tok, sender) s = s1
  split
  · simp only [map_bind]
    refine bind_same fun _ _ => bind_same fun _ _ => bind_same fun _ _ => ?_
    split
    · split
      · rfl
      · split
        · rfl
        · simp only [map_bind]
          exact bind_same fun _ _ => bind_same fun _ _ => bind_same fun _ _ => rfl
    · split <;> rfl
  · split <;> rfl

/-- A bid (with `BuyNow` and `BuyFor` too) of an account that has one already, expired or not, is the same as if it had none, and gives back
the old one in full on top. -/
theorem C167_replace {s : State} {sender : Addr} {m : Exec} {a : BidArgs} (ha : bidArgs m = some a) {b : Bid}
    (hb : s.bids.get? (a.coll, a.tok, sender) = some b) {ctx : Ctx} {funds : List Coin} :
    execute p ctx sender funds m s = (execute p ctx sender funds m (lessBid (a.coll, a.tok, sender) s)).map
        (fun r => (r.1, .send sender [⟨NATIVE, b.price⟩] :: r.2)) := by
  have hval : ∀ {x y : Bytes}, addrValidate p x = .ok y → x = y := fun h => (addrValidate_ok.mp h).2
  cases m <;> cases ha
  · simp only [execute, map_bind]
    refine bind_same fun x hx => bind_same fun _ _ => ?_
    cases hval hx
    exact setBid_again hb
  · simp only [execute, map_bind]
    refine bind_same fun x hx => bind_same fun _ _ => ?_
    cases hval hx
    exact setBid_again hb
  · simp only [execute, map_bind]
    refine bind_same fun x hx => bind_same fun _ _ => bind_same fun _ _ => ?_
    cases hval hx
    exact setBid_again hb

/-- The same for collection bids. -/
theorem C167_replace_collection {s : State} {sender : Addr} {coll : Bytes} {expires : Nat} {fee : Option Nat} {b : CBid}
    (hb : s.cbids.get? (coll, sender) = some b) {ctx : Ctx} {funds : List Coin} :
    execute p ctx sender funds (.setCollectionBid coll expires fee) s =
      (execute p ctx sender funds (.setCollectionBid coll expires fee) (lessCBid (coll, sender) s)).map
        (fun r => (r.1, .send b.bidder [⟨NATIVE, b.price⟩] :: r.2)) := by
  have hval : ∀ {x y : Bytes}, addrValidate p x = .ok y → x = y := fun h => (addrValidate_ok.mp h).2
  simp only [execute, executeSetCollectionBid, map_bind]
  refine bind_same fun x hx => ?_
  cases hval hx
  refine bind_same fun price _ => bind_same fun _ _ => bind_same fun _ _ => bind_same fun _ _ => ?_
  have e : (lessCBid (coll, sender) s).cbids.get? (coll, sender) = none := by simp [lessCBid]
  have e2 : ∀ v, (lessCBid (coll, sender) s).cbids.insert (coll, sender) v = s.cbids.insert (coll, sender) v := by
    intro v; simp [lessCBid, AMap.insert, AMap.erase, List.filter_filter]
  simp only [hb, e, e2, Except.map]
  rfl

end

namespace Sample
/-- bob's bid of 70 and carol's collection bid of 50, both until 3000 -/
abbrev lap : Bid := ⟨coll, 1, bob, 70, some 300, 3000 * NSs⟩
abbrev lapC : CBid := ⟨coll, carol, 50, none, 3000 * NSs⟩
example := C167_bid (p := P) (s := s6) (k := (coll, 1, bob)) (b := lap) (by decide +kernel) (ctx := ctx 3000) (by decide +kernel)
  (sender := alice) (funds := []) (m := .acceptBid coll 1 bob none) (fun h => h)
/-- just before, alice can accept it -/
example : ok (ctx 2999) alice [] (.acceptBid coll 1 bob none) s6 = true ∧ ok (ctx 3000) alice [] (.acceptBid coll 1 bob none) s6 = false := by
  decide +kernel
/-- alice lists the token while bob's bid is there and expired -/
example := C167_bid (p := P) (s := s6) (k := (coll, 1, bob)) (b := lap) (by decide +kernel) (ctx := ctx 3000) (by decide +kernel)
  (sender := alice) (funds := us 3) (m := .setAsk .fixedPrice coll 1 ⟨NATIVE, 101⟩ none none (some 500) (4000 * NSs)) (fun h => h)
example : ok (ctx 3000) alice (us 3) (.setAsk .fixedPrice coll 1 ⟨NATIVE, 101⟩ none none (some 500) (4000 * NSs)) s6 = true := by decide +kernel
example := C167_collection (p := P) (s := s6) (k := (coll, carol)) (b := lapC) (by decide +kernel) (ctx := ctx 3000) (by decide +kernel)
  (sender := alice) (funds := []) (m := .acceptCollectionBid coll 1 carol none) (fun h => h)
example : ok (ctx 2999) alice [] (.acceptCollectionBid coll 1 carol none) s6 = true := by decide +kernel
example := C167_replace (p := P) (s := s6) (sender := bob) (m := .setBid coll 1 (4000 * NSs) .fixedPrice none none) rfl (b := lap) (by decide +kernel)
  (ctx := ctx 1500) (funds := us 90)
example : ok (ctx 1500) bob (us 90) (.setBid coll 1 (4000 * NSs) .fixedPrice none none) s6 = true := by decide +kernel
example := C167_replace_collection (p := P) (s := s6) (sender := carol) (coll := coll) (b := lapC) (by decide +kernel) (ctx := ctx 3500) (funds := us 60)
  (expires := 5000 * NSs) (fee := none)
example : ok (ctx 3500) carol (us 60) (.setCollectionBid coll (5000 * NSs) none) s6 = true := by decide +kernel
end Sample

end Verif.V1

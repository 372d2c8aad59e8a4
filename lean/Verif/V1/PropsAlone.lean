/-
Marketplace v1: a call depends on and changes the orders it names only (C124).
-/
import Verif.Base.Keep
import Verif.V1.PropsOrders

namespace Verif.V1
open Verif Spec

variable {p : Params} {me : Addr}

namespace Spec

/-- A set of orders, by key. -/
structure Region where
  ask : AskKey → Bool
  bid : BidKey → Bool
  cbid : CBidKey → Bool

/-- The marketplace as it would be if the orders of the region were the only ones. -/
def only (r : Region) (s : State) : State :=
  { s with
    asks := s.asks.keep (fun k _ => r.ask k)
    bids := s.bids.keep (fun k _ => r.bid k)
    cbids := s.cbids.keep (fun k _ => r.cbid k) }

/-- The same for a result. -/
def onlyRes (r : Region) (x : Res (State × List Msg)) : Res (State × List Msg) := x.map (fun x => (only r x.1, x.2))

/-- The listing a call is about. -/
def namesAsk : Exec → Option AskKey
  | .setAsk _ c t _ _ _ _ _ | .removeAsk c t | .updateAskPrice c t _ | .setBid c t _ _ _ _ | .buyNow c t _ _ _ | .buyFor c t _ _ _ _
  | .acceptBid c t _ _ | .acceptCollectionBid c t _ _ | .syncAsk c t | .removeStaleAsk c t => some (c, t)
  | _ => none

/-- The bid a call is about: the caller's, or that of the bidder it names. -/
def namesBid (sender : Addr) : Exec → Option BidKey
  | .setBid c t _ _ _ _ | .buyNow c t _ _ _ | .buyFor c t _ _ _ _ | .removeBid c t => some (c, t, sender)
  | .acceptBid c t b _ | .rejectBid c t b | .removeStaleBid c t b => some (c, t, b)
  | _ => none

/-- The collection bid a call is about. -/
def namesCBid (sender : Addr) : Exec → Option CBidKey
  | .setCollectionBid c _ _ | .removeCollectionBid c => some (c, sender)
  | .acceptCollectionBid c _ b _ | .removeStaleCollectionBid c b => some (c, b)
  | _ => none

/-- All orders the call is about are in the region. -/
def Inside (r : Region) (sender : Addr) (m : Exec) : Prop :=
  (∀ k, namesAsk m = some k → r.ask k = true) ∧ (∀ k, namesBid sender m = some k → r.bid k = true) ∧
  (∀ k, namesCBid sender m = some k → r.cbid k = true)

/-- None is. -/
def Outside (r : Region) (sender : Addr) (m : Exec) : Prop :=
  (∀ k, namesAsk m = some k → r.ask k = false) ∧ (∀ k, namesBid sender m = some k → r.bid k = false) ∧
  (∀ k, namesCBid sender m = some k → r.cbid k = false)

/-- The orders of a collection. -/
def ofColl (c : Addr) : Region := ⟨fun k => decide (k.1 = c), fun k => decide (k.1 = c), fun k => decide (k.1 = c)⟩

/-- The collection a call names. -/
def collOf : Exec → Addr
  | .setAsk _ c _ _ _ _ _ _ | .removeAsk c _ | .updateAskPrice c _ _ | .setBid c _ _ _ _ _ | .buyNow c _ _ _ _ | .buyFor c _ _ _ _ _
  | .removeBid c _ | .acceptBid c _ _ _ | .rejectBid c _ _ | .setCollectionBid c _ _ | .removeCollectionBid c
  | .acceptCollectionBid c _ _ _ | .syncAsk c _ | .removeStaleAsk c _ | .removeStaleBid c _ _ | .removeStaleCollectionBid c _ => c

/-- Histories in which all calls are about orders of a region. -/
inductive Within (p : Params) (self : Addr) (r : Region) : State → Prop where
  | init {i : Init} {s : State} (h : instantiate p i = .ok s) : Within p self r s
  | call {s s' : State} {ctx : Ctx} {sender : Addr} {funds : List Coin} {m : Exec} {msgs : List Msg} (hl : Within p self r s)
      (hself : ctx.self = self) (hne : sender ≠ self) (hm : Inside r sender m)
      (h : execute p ctx sender funds m s = .ok (s', msgs)) : Within p self r s'
  | sudo {s s' : State} {ctx : Ctx} {m : Sudo} {msgs : List Msg} (hl : Within p self r s) (hself : ctx.self = self)
      (h : sudo p ctx m s = .ok (s', msgs)) : Within p self r s'

end Spec

/-! ### Restricted states -/

section
variable {r : Region} {s : State}

theorem get_ask {k : AskKey} (h : r.ask k = true) : (only r s).asks.get? k = s.asks.get? k := AMap.get?_keep_pos fun _ _ => h
theorem get_bid {k : BidKey} (h : r.bid k = true) : (only r s).bids.get? k = s.bids.get? k := AMap.get?_keep_pos fun _ _ => h
theorem get_cbid {k : CBidKey} (h : r.cbid k = true) : (only r s).cbids.get? k = s.cbids.get? k := AMap.get?_keep_pos fun _ _ => h

theorem put_ask {k : AskKey} {a : Ask} (h : r.ask k = true) :
    only r { s with asks := s.asks.insert k a } = { only r s with asks := (only r s).asks.insert k a } := by
  simp only [only]; rw [AMap.keep_insert _ _ _ _ (by simpa using h)]
theorem put_bid {k : BidKey} {a : Bid} (h : r.bid k = true) :
    only r { s with bids := s.bids.insert k a } = { only r s with bids := (only r s).bids.insert k a } := by
  simp only [only]; rw [AMap.keep_insert _ _ _ _ (by simpa using h)]
theorem put_cbid {k : CBidKey} {a : CBid} (h : r.cbid k = true) :
    only r { s with cbids := s.cbids.insert k a } = { only r s with cbids := (only r s).cbids.insert k a } := by
  simp only [only]; rw [AMap.keep_insert _ _ _ _ (by simpa using h)]
theorem del_ask {k : AskKey} : only r { s with asks := s.asks.erase k } = { only r s with asks := (only r s).asks.erase k } := by
  simp only [only]; rw [AMap.keep_erase]
theorem del_bid {k : BidKey} : only r { s with bids := s.bids.erase k } = { only r s with bids := (only r s).bids.erase k } := by
  simp only [only]; rw [AMap.keep_erase]
theorem del_cbid {k : CBidKey} : only r { s with cbids := s.cbids.erase k } = { only r s with cbids := (only r s).cbids.erase k } := by
  simp only [only]; rw [AMap.keep_erase]

theorem only_save {b : Bid} {ms : List Msg} (h : r.bid (b.collection, b.tokenId, b.bidder) = true) :
    saveBid b ms (only r s) = (only r (saveBid b ms s).1, (saveBid b ms s).2) := by
  unfold saveBid
  rw [put_bid h]; rfl

theorem only_refund {c : Addr} {t : Nat} {a : Addr} (h : r.bid (c, t, a) = true) :
    refundOld c t a (only r s) = (only r (refundOld c t a s).1, (refundOld c t a s).2) := by
  unfold refundOld
  rw [get_bid h]
  cases s.bids.get? (c, t, a) with
  | none => rfl
  | some b => simp only [del_bid]

theorem only_setBid {ctx : Ctx} {sender : Addr} {funds : List Coin} {c : Addr} {t e : Nat} {f : Option Addr} {fee : Option Nat}
    {rc : Option Addr} {bn : Bool} (ha : r.ask (c, t) = true) (hb : r.bid (c, t, sender) = true) :
    executeSetBid ctx sender funds c t e f fee rc bn (only r s) = onlyRes r (executeSetBid ctx sender funds c t e f fee rc bn s) := by
  simp only [executeSetBid, onlyRes, map_bind]
  refine bind_same fun _ _ => bind_same fun _ _ => bind_same fun price _ => bind_same fun _ _ => bind_same fun _ _ => ?_
  rw [only_refund hb]
  generalize refundOld c t sender s = x
  obtain ⟨s1, ms⟩ := x
  simp only
  rw [get_ask ha]
  cases s1.asks.get? (c, t) with
  | none =>
    simp only
    split
    · rfl
    · rw [only_save hb]; rfl
  | some a =>
    simp only [map_bind]
    refine bind_same fun _ _ => bind_same fun _ _ => bind_same fun _ _ => ?_
    cases a.saleType with
    | auction =>
      simp only
      split
      · rfl
      · rw [only_save hb]; rfl
    | fixedPrice =>
      simp only
      split
      · rfl
      · split
        · rw [only_save hb]; rfl
        · simp only [map_bind]
          refine bind_same fun _ _ => bind_same fun _ _ => ?_
          exact bind_same fun _ _ => by simp only [Except.map, del_ask]

end

/-! ### C124 -/

/-- A call does exactly what it would do if only the orders it is about (and any others) were there. -/
theorem C124_local {r : Region} {s : State} {ctx : Ctx} {sender : Addr} {funds : List Coin} {m : Exec} (hm : Inside r sender m) :
    execute p ctx sender funds m (only r s) = onlyRes r (execute p ctx sender funds m s) := by
  obtain ⟨ha, hb, hc⟩ := hm
  have hval : ∀ {x y : Bytes}, addrValidate p x = .ok y → x = y := fun h => (addrValidate_ok.mp h).2
  cases m with
  | setAsk ty coll tok price recipient reserveFor fee expires =>
    simp only [execute, executeSetAsk, onlyRes, map_bind]
    refine bind_same fun x hx => ?_
    cases hval hx
    refine bind_same fun _ _ => bind_same fun _ _ => bind_same fun _ _ => bind_same fun _ _ => bind_same fun _ _ => bind_same fun _ _ =>
      bind_same fun _ _ => bind_same fun _ _ => bind_same fun _ _ => bind_same fun _ _ => bind_same fun _ _ => bind_same fun _ _ => ?_
    simp only [Except.map, put_ask (ha _ rfl)]; rfl
  | removeAsk coll tok =>
    simp only [execute, executeRemoveAsk, onlyRes, map_bind]
    refine bind_same fun x hx => ?_
    cases hval hx
    rw [get_ask (ha _ rfl)]
    refine bind_same fun _ _ => bind_same fun _ _ => bind_same fun _ _ => ?_
    simp only [Except.map, del_ask]; rfl
  | updateAskPrice coll tok price =>
    simp only [execute, executeUpdateAskPrice, onlyRes, map_bind]
    refine bind_same fun x hx => ?_
    cases hval hx
    rw [get_ask (ha _ rfl)]
    refine bind_same fun _ _ => bind_same fun _ _ => bind_same fun _ _ => bind_same fun _ _ => bind_same fun _ _ => bind_same fun _ _ => ?_
    simp only [Except.map, put_ask (ha _ rfl)]; rfl
  | setBid coll tok expires ty finder fee =>
    simp only [execute, onlyRes, map_bind]
    refine bind_same fun x hx => bind_same fun _ _ => ?_
    cases hval hx
    exact only_setBid (ha _ rfl) (hb _ rfl)
  | buyNow coll tok expires finder fee =>
    simp only [execute, onlyRes, map_bind]
    refine bind_same fun x hx => bind_same fun _ _ => ?_
    cases hval hx
    exact only_setBid (ha _ rfl) (hb _ rfl)
  | buyFor coll tok expires finder fee rc =>
    simp only [execute, onlyRes, map_bind]
    refine bind_same fun x hx => bind_same fun _ _ => bind_same fun _ _ => ?_
    cases hval hx
    exact only_setBid (ha _ rfl) (hb _ rfl)
  | removeBid coll tok =>
    simp only [execute, executeRemoveBid, onlyRes, map_bind]
    refine bind_same fun x hx => ?_
    cases hval hx
    rw [get_bid (hb _ rfl)]
    refine bind_same fun _ _ => bind_same fun _ _ => ?_
    simp only [Except.map, del_bid]; rfl
  | acceptBid coll tok bidder finder =>
    simp only [execute, executeAcceptBid, onlyRes, map_bind]
    refine bind_same fun x hx => bind_same fun y hy => bind_same fun _ _ => ?_
    cases hval hx
    cases hval hy
    rw [get_bid (hb _ rfl)]
    refine bind_same fun _ _ => bind_same fun _ _ => bind_same fun _ _ => bind_same fun _ _ => bind_same fun _ _ => ?_
    exact bind_same fun _ _ => by simp only [Except.map, only, AMap.keep_erase]
  | rejectBid coll tok bidder =>
    simp only [execute, executeRejectBid, onlyRes, map_bind]
    refine bind_same fun x hx => bind_same fun y hy => ?_
    cases hval hx
    cases hval hy
    rw [get_bid (hb _ rfl)]
    refine bind_same fun _ _ => bind_same fun _ _ => bind_same fun _ _ => ?_
    simp only [Except.map, del_bid]; rfl
  | setCollectionBid coll expires fee =>
    simp only [execute, executeSetCollectionBid, onlyRes, map_bind]
    refine bind_same fun x hx => ?_
    cases hval hx
    rw [get_cbid (hc _ rfl)]
    refine bind_same fun _ _ => bind_same fun _ _ => bind_same fun _ _ => bind_same fun _ _ => ?_
    simp only [Except.map, put_cbid (hc _ rfl)]; rfl
  | removeCollectionBid coll =>
    simp only [execute, executeRemoveCollectionBid, onlyRes, map_bind]
    refine bind_same fun x hx => ?_
    cases hval hx
    rw [get_cbid (hc _ rfl)]
    refine bind_same fun _ _ => bind_same fun _ _ => ?_
    simp only [Except.map, del_cbid]; rfl
  | acceptCollectionBid coll tok bidder finder =>
    simp only [execute, executeAcceptCollectionBid, onlyRes, map_bind]
    refine bind_same fun x hx => bind_same fun y hy => bind_same fun _ _ => ?_
    cases hval hx
    cases hval hy
    rw [get_cbid (hc _ rfl)]
    refine bind_same fun _ _ => bind_same fun _ _ => bind_same fun _ _ => bind_same fun _ _ => bind_same fun _ _ => ?_
    exact bind_same fun _ _ => by simp only [Except.map, only, AMap.keep_erase]
  | syncAsk coll tok =>
    simp only [execute, executeSyncAsk, onlyRes, map_bind]
    refine bind_same fun x hx => ?_
    cases hval hx
    rw [get_ask (ha _ rfl)]
    refine bind_same fun _ _ => bind_same fun _ _ => bind_same fun _ _ => bind_same fun _ _ => ?_
    simp only [Except.map, put_ask (ha _ rfl)]; rfl
  | removeStaleAsk coll tok =>
    simp only [execute, executeRemoveStaleAsk, onlyRes, map_bind]
    refine bind_same fun x hx => ?_
    cases hval hx
    rw [get_ask (ha _ rfl)]
    refine bind_same fun _ _ => bind_same fun _ _ => bind_same fun _ _ => bind_same fun _ _ => ?_
    simp only [Except.map, del_ask]; rfl
  | removeStaleBid coll tok bidder =>
    simp only [execute, executeRemoveStaleBid, onlyRes, map_bind]
    refine bind_same fun x hx => bind_same fun y hy => ?_
    cases hval hx
    cases hval hy
    rw [get_bid (hb _ rfl)]
    refine bind_same fun _ _ => bind_same fun _ _ => bind_same fun _ _ => bind_same fun _ _ => bind_same fun _ _ => bind_same fun _ _ => ?_
    simp only [Except.map, del_bid]; rfl
  | removeStaleCollectionBid coll bidder =>
    simp only [execute, executeRemoveStaleCollectionBid, onlyRes, map_bind]
    refine bind_same fun x hx => bind_same fun y hy => ?_
    cases hval hx
    cases hval hy
    rw [get_cbid (hc _ rfl)]
    refine bind_same fun _ _ => bind_same fun _ _ => bind_same fun _ _ => bind_same fun _ _ => bind_same fun _ _ => bind_same fun _ _ => ?_
    simp only [Except.map, del_cbid]; rfl

/-- Governance does not look at orders. -/
theorem C124_sudo {r : Region} {s : State} {ctx : Ctx} {m : Sudo} :
    sudo p ctx m (only r s) = onlyRes r (sudo p ctx m s) := by
  cases m with
  | updateParams u => simp only [sudo, updateParams, onlyRes, map_bind]; rfl
  | addOperator a => simp only [sudo, addOperator, onlyRes, map_bind]; rfl
  | removeOperator a => simp only [sudo, removeOperator, onlyRes, map_bind]; rfl
  | addAskHook a => simp only [sudo, onlyRes, map_bind]; rfl
  | addBidHook a => simp only [sudo, onlyRes, map_bind]; rfl
  | addSaleHook a => simp only [sudo, onlyRes, map_bind]; rfl
  | removeAskHook a => simp only [sudo, onlyRes, map_bind]; rfl
  | removeBidHook a => simp only [sudo, onlyRes, map_bind]; rfl
  | removeSaleHook a => simp only [sudo, onlyRes, map_bind]; rfl

/-- A call leaves all orders alone that it is not about. -/
theorem C124_others {r : Region} {s s' : State} {ctx : Ctx} {sender : Addr} {funds : List Coin} {m : Exec} {msgs : List Msg}
    (hm : Outside r sender m) (h : execute p ctx sender funds m s = .ok (s', msgs)) : only r s' = only r s := by
  obtain ⟨ha, hb, hc⟩ := hm
  have pa : ∀ {k : AskKey} {a : Ask} {m : AMap AskKey Ask}, r.ask k = false → (m.insert k a).keep (fun k _ => r.ask k) = m.keep (fun k _ => r.ask k) :=
    fun h => AMap.keep_insert_out _ _ _ _ h fun _ _ => h
  have pb : ∀ {k : BidKey} {a : Bid} {m : AMap BidKey Bid}, r.bid k = false → (m.insert k a).keep (fun k _ => r.bid k) = m.keep (fun k _ => r.bid k) :=
    fun h => AMap.keep_insert_out _ _ _ _ h fun _ _ => h
  have pc : ∀ {k : CBidKey} {a : CBid} {m : AMap CBidKey CBid}, r.cbid k = false → (m.insert k a).keep (fun k _ => r.cbid k) = m.keep (fun k _ => r.cbid k) :=
    fun h => AMap.keep_insert_out _ _ _ _ h fun _ _ => h
  have da : ∀ {k : AskKey} {m : AMap AskKey Ask}, r.ask k = false → (m.erase k).keep (fun k _ => r.ask k) = m.keep (fun k _ => r.ask k) :=
    fun h => AMap.keep_erase_out _ _ _ fun _ _ => h
  have db : ∀ {k : BidKey} {m : AMap BidKey Bid}, r.bid k = false → (m.erase k).keep (fun k _ => r.bid k) = m.keep (fun k _ => r.bid k) :=
    fun h => AMap.keep_erase_out _ _ _ fun _ _ => h
  have dc : ∀ {k : CBidKey} {m : AMap CBidKey CBid}, r.cbid k = false → (m.erase k).keep (fun k _ => r.cbid k) = m.keep (fun k _ => r.cbid k) :=
    fun h => AMap.keep_erase_out _ _ _ fun _ _ => h
  have args : ∀ {b : BidArgs}, bidArgs m = some b → namesAsk m = some (b.coll, b.tok) ∧ namesBid sender m = some (b.coll, b.tok, sender) := by
    intro b hb
    cases m <;> simp only [bidArgs, Option.some.injEq, reduceCtorEq] at hb <;> subst hb <;> exact ⟨rfl, rfl⟩
  cases execute_eff h with
  | setAsk => simp only [only, pa (ha _ rfl)]
  | removeAsk => simp only [only, da (ha _ rfl)]
  | updatePrice => simp only [only, pa (ha _ rfl)]
  | bidSaved _ b _ hm => simp only [only, pb (hb _ (args hm).2), db (hb _ (args hm).2)]
  | bought _ b _ _ _ hm => simp only [only, db (hb _ (args hm).2), da (ha _ (args hm).1)]
  | removeBid => simp only [only, db (hb _ rfl)]
  | acceptBid => simp only [only, db (hb _ rfl), da (ha _ rfl)]
  | rejectBid => simp only [only, db (hb _ rfl)]
  | setCBid => simp only [only, pc (hc _ rfl)]
  | removeCBid => simp only [only, dc (hc _ rfl)]
  | acceptCBid => simp only [only, dc (hc _ rfl), da (ha _ rfl)]
  | syncAsk => simp only [only, pa (ha _ rfl)]
  | staleAsk => simp only [only, da (ha _ rfl)]
  | staleBid => simp only [only, db (hb _ rfl)]
  | staleCBid => simp only [only, dc (hc _ rfl)]

/-- The orders of a region that every call either keeps to or stays out of evolve as if there were no others. -/
theorem C124_history {s : State} (hr : Reach p me s) {r : Region} (hreg : ∀ sender m, Inside r sender m ∨ Outside r sender m) :
    Within p me r (only r s) := by
  obtain ⟨i, s0, hi, ha⟩ := hr
  induction ha with
  | refl =>
    have : only r s0 = s0 := by
      unfold instantiate at hi
      simp only [bind_ok] at hi
      obtain ⟨_, _, _, _, _, _, _, _, _, _, _, _, _, _, _, _, h⟩ := hi
      cases h; rfl
    rw [this]; exact .init hi
  | @step b c' h hs ih =>
    cases hs with
    | @call ctx sender funds m msgs hself hne hx =>
      rcases hreg sender m with hm | hm
      · refine .call ih hself hne hm (ctx := ctx) (funds := funds) (msgs := msgs) ?_
        rw [C124_local hm, hx]; rfl
      · rw [C124_others hm hx]; exact ih
    | @sudo ctx m msgs hself hx =>
      refine .sudo ih hself (ctx := ctx) (m := m) (msgs := msgs) ?_
      rw [C124_sudo, hx]; rfl

theorem names_coll {sender : Addr} (m : Exec) : (∀ k, namesAsk m = some k → k.1 = collOf m) ∧
    (∀ k, namesBid sender m = some k → k.1 = collOf m) ∧ (∀ k, namesCBid sender m = some k → k.1 = collOf m) := by
  cases m <;> refine ⟨?_, ?_, ?_⟩ <;> rintro k ⟨⟩ <;> rfl

/-- A call about a collection depends on and changes orders of this collection only. -/
theorem C124_collection {c : Addr} {sender : Addr} {m : Exec} :
    (collOf m = c → Inside (ofColl c) sender m) ∧ (collOf m ≠ c → Outside (ofColl c) sender m) := by
  obtain ⟨h1, h2, h3⟩ := names_coll (sender := sender) m
  constructor
  · intro h
    exact ⟨fun k hk => decide_eq_true ((h1 k hk).trans h), fun k hk => decide_eq_true ((h2 k hk).trans h),
      fun k hk => decide_eq_true ((h3 k hk).trans h)⟩
  · intro h
    exact ⟨fun k hk => decide_eq_false (fun e => h ((h1 k hk).symm.trans e)), fun k hk => decide_eq_false (fun e => h ((h2 k hk).symm.trans e)),
      fun k hk => decide_eq_false (fun e => h ((h3 k hk).symm.trans e))⟩

/-- In particular the orders of a collection evolve as if there were no others. -/
theorem C124_collections {s : State} (hr : Reach p me s) (c : Addr) : Within p me (ofColl c) (only (ofColl c) s) := by
  refine C124_history hr fun sender m => ?_
  by_cases h : collOf m = c
  · exact .inl (C124_collection.1 h)
  · exact .inr (C124_collection.2 h)

namespace Sample

/-- Carol's purchase in `s6` needs nothing but the listing of the token; bob's bid on the token and carol's collection bid are
not there in the restricted state, and the purchase is the same. -/
def spot : Region := ⟨fun k => decide (k = (coll, 1)), fun k => decide (k = (coll, 1, carol)), fun _ => false⟩

example : s6.asks.l.length = 1 ∧ s6.bids.l.length = 1 ∧ s6.cbids.l.length = 1 ∧ (only spot s6).asks.l.length = 1 ∧
    (only spot s6).bids.l.length = 0 ∧ (only spot s6).cbids.l.length = 0 ∧ ok (ctx 1002) carol (us 101) buyMsg s6 = true := by
  refine ⟨by decide +kernel, by decide +kernel, by decide +kernel, by decide +kernel, by decide +kernel, by decide +kernel,
    by decide +kernel⟩

theorem spot_in : Inside spot carol buyMsg := by refine ⟨?_, ?_, ?_⟩ <;> rintro k ⟨⟩ <;> decide +kernel

example : execute P (ctx 1002) carol (us 101) buyMsg (only spot s6) = onlyRes spot (execute P (ctx 1002) carol (us 101) buyMsg s6) :=
  C124_local spot_in

/-- Bob's bid and carol's collection bid stay. -/
def rest : Region := ⟨fun k => decide (k ≠ (coll, 1)), fun k => decide (k ≠ (coll, 1, carol)), fun _ => true⟩
theorem rest_out : Outside rest carol buyMsg := by refine ⟨?_, ?_, ?_⟩ <;> rintro k ⟨⟩ <;> decide +kernel
example : only rest s7 = only rest s6 :=
  C124_others rest_out (run_eq (c := ctx 1002) (sender := carol) (funds := us 101) (m := buyMsg) (by decide +kernel))
example : (only rest s6).bids.l.length = 1 ∧ (only rest s6).cbids.l.length = 1 := by
  refine ⟨by decide +kernel, by decide +kernel⟩

end Sample
end Verif.V1

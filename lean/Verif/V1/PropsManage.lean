/-
Properties C102 and C103 of marketplace v1: token owners can always withdraw and reprice their listings and reject bids, and
operators can clean up.
-/
import Verif.V1.PropsLive

namespace Verif.V1
open Verif Spec

variable {p : Params} {me : Addr} {honest : Addr → Prop}
variable {sender : Addr} {m : Exec} {s' : State} {msgs : List Msg}

theorem no_coins_le {f : Denom → Nat} : ∀ d, amountOf d [] ≤ f d := fun _ => Nat.zero_le _

/-- A call without coins that hands over nothing completes. -/
theorem complete {w : World State} (h : Run p me honest (w, [])) {q : Queries} (hq : (sys p me honest).queriesOk w q)
    (hne : sender ≠ me) (hx : execute p ((sys p me honest).ctx w q) sender [] m w.st = .ok (s', msgs)) (hh : handed msgs = [])
    (hz : NoZero msgs) :
    ∃ w', (sys p me honest).Steps (w, []) (w', []) ∧ w'.st = s' ∧ (∀ x d, x ≠ me → w'.bank x d = w.bank x d + gets x d msgs) ∧
      w'.owner = w.owner := by
  obtain ⟨w', g1, g2, g3, g4, _, g6⟩ := C98_partial h hq hne no_coins_le hx
    (by intro c t to hm; rw [hh] at hm; cases hm) hz
  refine ⟨w', (Sys.Steps.single g1).trans g2, g3, ?_, ?_⟩
  · intro x d hxm
    have := g4 x d hxm
    have e : (if x = sender then amountOf d [] else 0) = 0 := by split <;> rfl
    rw [e] at this
    exact this
  · funext c t
    exact g6 c t (by intro to hm; rw [hh] at hm; cases hm)

theorem onlyOwner_go {ctx : Ctx} {c : Addr} {t : Nat} (h : ctx.q.ownerOf c (tokStr t) = some sender) :
    onlyOwner ctx sender c t = .ok () := by
  simp [onlyOwner, h, orErr, ok_bind, ensure]

theorem nonpayable_go : nonpayable [] = .ok () := rfl

theorem gets_hooks {a : Addr} {d : Denom} (hs : List Addr) (f : Addr → HookInfo) : gets a d (hs.map (fun h => .hook h (f h))) = 0 := by
  induction hs with
  | nil => rfl
  | cons x xs ih => exact ih

theorem checkStale_go {now t n : Nat} {d : Duration} (hd : d = .time n) (hle : t + n * NS ≤ now) (hfit : now ≤ U64MAX) :
    checkStale now t d = .ok () := by
  subst hd
  have h1 : plusSeconds t n = .ok (t + n * NS) := plusSeconds_ok.mpr ⟨Nat.le_trans hle hfit, rfl⟩
  unfold checkStale
  show (plusSeconds t n >>= fun x => ensure (x ≤ now) .notStale) = _
  rw [h1, ok_bind]
  exact ensure_eq hle

theorem reward_go {x r : Nat} {c : SudoParams} (hc : GoodParams c) (hrw : c.bidRemovalReward = percent r) (hfit : x * 100 ≤ U128MAX) :
    mulFloor x c.bidRemovalReward = .ok (x * percent r / ONE) := by
  obtain ⟨r', hr1, hr2⟩ := hc.reward
  have := mulFloor_go (percent_le_ONE hr2) hfit
  rw [← hr1, hrw] at this
  rw [hrw]
  exact this

theorem sub_go {a b : Nat} (h : b < a) : subChk a b = .ok (a - b) := if_pos (Nat.le_of_lt h)

theorem staleBid_go {ctx : Ctx} {s : State} {c b : Addr} {t n x y : Nat} {o : Bid} (hv : p.valid c = true) (hvb : p.valid b = true)
    (hop : sender ∈ s.params.operators) (hb : s.bids.get? (c, t, b) = some o)
    (hck : checkStale ctx.time o.expiresAt s.params.staleBidDuration = .ok ())
    (hmul : mulFloor o.price s.params.bidRemovalReward = .ok n) (hx : n / 100 = x) (hsub : subChk o.price x = .ok y) :
    execute p ctx sender [] (.removeStaleBid c t b) s = .ok ({ s with bids := s.bids.erase (c, t, b) },
      .send o.bidder [⟨NATIVE, y⟩] :: .send sender [⟨NATIVE, x⟩] :: bidHook s o .delete) := by
  subst hx
  simp only [execute, addrValidate, hv, hvb, if_true, ok_bind, executeRemoveStaleBid, nonpayable_go, onlyOperator, ensure_eq hop, hb,
    orErr, hck, hmul, hsub]

theorem staleCBid_go {ctx : Ctx} {s : State} {c b : Addr} {n x y : Nat} {o : CBid} (hv : p.valid c = true) (hvb : p.valid b = true)
    (hop : sender ∈ s.params.operators) (hb : s.cbids.get? (c, b) = some o)
    (hck : checkStale ctx.time o.expiresAt s.params.staleBidDuration = .ok ())
    (hmul : mulFloor o.price s.params.bidRemovalReward = .ok n) (hx : n / 100 = x) (hsub : subChk o.price x = .ok y) :
    execute p ctx sender [] (.removeStaleCollectionBid c b) s = .ok ({ s with cbids := s.cbids.erase (c, b) },
      .send o.bidder [⟨NATIVE, y⟩] :: .send sender [⟨NATIVE, x⟩] :: cbidHook s o .delete) := by
  subst hx
  simp only [execute, addrValidate, hv, hvb, if_true, ok_bind, executeRemoveStaleCollectionBid, nonpayable_go, onlyOperator, ensure_eq hop,
    hb, orErr, hck, hmul, hsub]

/-! ### C102 owners -/

section
variable {w : World State} (h : Run p me honest (w, [])) {q : Queries} (hq : (sys p me honest).queriesOk w q) {c : Addr} {t : Nat}
  (hc : honest c) (hown : w.owner c (tokStr t) = some sender) (hne : sender ≠ me)
include h hq hc hown hne

/-- The owner of a token can remove its listing, whoever made it, active or not, expired or not. -/
theorem C102_remove {a : Ask} (ha : w.st.asks.get? (c, t) = some a) :
    ∃ s' msgs w', execute p ((sys p me honest).ctx w q) sender [] (.removeAsk c t) w.st = .ok (s', msgs) ∧
      s'.asks.get? (c, t) = none ∧ (sys p me honest).Steps (w, []) (w', []) ∧ w'.st = s' := by
  have hr := Spec.Run.reach h
  have hv := (hr.wf.asks _ _ ha).valid
  have hk := (hr.wf.asks _ _ ha).key
  cases hk
  have hown' := (hq _ _ hc).trans hown
  have hex : execute p ((sys p me honest).ctx w q) sender [] (.removeAsk a.collection a.tokenId) w.st =
      .ok ({ w.st with asks := w.st.asks.erase (a.collection, a.tokenId) }, askHook w.st a .delete) := by
    simp only [execute, addrValidate, hv, if_true, ok_bind, executeRemoveAsk, nonpayable_go,
      onlyOwner_go (ctx := (sys p me honest).ctx w q) hown', ha, orErr]
  obtain ⟨w', h1, h2, _⟩ := complete h hq hne hex (handed_hooks _ _) (.hooks _ _)
  exact ⟨_, _, w', hex, AMap.get?_erase_self _ _, h1, h2⟩

/-- The owner of a token can change the price of an active, unexpired listing to any price of at least the minimum. -/
theorem C102_price {a : Ask} {x : Nat} (ha : w.st.asks.get? (c, t) = some a) (hact : a.isActive = true) (hlive : w.time < a.expiresAt)
    (hpos : 0 < x) (hmin : w.st.params.minPrice ≤ x) :
    ∃ s' msgs w', execute p ((sys p me honest).ctx w q) sender [] (.updateAskPrice c t ⟨ustars, x⟩) w.st = .ok (s', msgs) ∧
      s'.asks.get? (c, t) = some { a with price := x } ∧ (sys p me honest).Steps (w, []) (w', []) ∧ w'.st = s' := by
  have hr := Spec.Run.reach h
  have hv := (hr.wf.asks _ _ ha).valid
  have hk := (hr.wf.asks _ _ ha).key
  cases hk
  have hown' := (hq _ _ hc).trans hown
  have hpv : priceValidate w.st ⟨ustars, x⟩ = .ok () := by
    unfold priceValidate
    rw [ensure_eq (by exact ⟨by show x ≠ 0; omega, ustars_eq⟩), ok_bind]
    exact ensure_eq hmin
  have hlive' : ¬ a.expiresAt ≤ ((sys p me honest).ctx w q).time := by
    show ¬ a.expiresAt ≤ w.time
    omega
  have hex : execute p ((sys p me honest).ctx w q) sender [] (.updateAskPrice a.collection a.tokenId ⟨ustars, x⟩) w.st =
      .ok ({ w.st with asks := w.st.asks.insert (a.collection, a.tokenId) { a with price := x } },
        askHook w.st { a with price := x } .update) := by
    simp only [execute, addrValidate, hv, if_true, ok_bind, executeUpdateAskPrice, nonpayable_go,
      onlyOwner_go (ctx := (sys p me honest).ctx w q) hown', ha, orErr, hpv, ensure_eq hact, ensure_eq hlive']
  obtain ⟨w', h1, h2, _⟩ := complete h hq hne hex (handed_hooks _ _) (.hooks _ _)
  exact ⟨_, _, w', hex, AMap.get?_insert_self _ _ _, h1, h2⟩

/-- The owner of a token can reject any bid on it; the bidder has the price back. -/
theorem C102_reject {b : Addr} {o : Bid} (hb : w.st.bids.get? (c, t, b) = some o) (hvb : p.valid b = true) :
    ∃ s' msgs w', execute p ((sys p me honest).ctx w q) sender [] (.rejectBid c t b) w.st = .ok (s', msgs) ∧
      s'.bids.get? (c, t, b) = none ∧ (sys p me honest).Steps (w, []) (w', []) ∧ w'.st = s' ∧
      w'.bank b ustars = w.bank b ustars + o.price := by
  have hr := Spec.Run.reach h
  have hg := hr.wf.bids _ _ hb
  have hv := hg.valid
  have hk := hg.key
  cases hk
  have hown' := (hq _ _ hc).trans hown
  have hex : execute p ((sys p me honest).ctx w q) sender [] (.rejectBid o.collection o.tokenId o.bidder) w.st =
      .ok ({ w.st with bids := w.st.bids.erase (o.collection, o.tokenId, o.bidder) },
        .send o.bidder [⟨NATIVE, o.price⟩] :: bidHook w.st o .delete) := by
    simp only [execute, addrValidate, hv, hvb, if_true, ok_bind, executeRejectBid, nonpayable_go,
      onlyOwner_go (ctx := (sys p me honest).ctx w q) hown', hb, orErr]
  obtain ⟨w', h1, h2, h3, _⟩ := complete h hq hne hex (handed_hooks _ _)
    (NoZero.append (a := [_]) (NoZero.one hg.pos) (.hooks _ _))
  refine ⟨_, _, w', hex, AMap.get?_erase_self _ _, h1, h2, ?_⟩
  rw [h3 _ _ hg.bidder, ustars_eq]
  simp only [gets, bidHook, gets_hooks, if_true, nat_coin, nat_native, Nat.add_zero]
end

/-! ### C103 operators -/

section
variable {w : World State} (h : Run p me honest (w, [])) {q : Queries} (hq : (sys p me honest).queriesOk w q) {c : Addr} {t : Nat}
  (hop : sender ∈ w.st.params.operators) (hne : sender ≠ me)
include h hq hop hne

/-- An operator can adjust the activity of a listing to the reported approval whenever they differ. -/
theorem C103_sync {a : Ask} (ha : w.st.asks.get? (c, t) = some a) (hd : q.approval c (tokStr t) ≠ a.isActive) :
    ∃ s' msgs w', execute p ((sys p me honest).ctx w q) sender [] (.syncAsk c t) w.st = .ok (s', msgs) ∧
      s'.asks.get? (c, t) = some { a with isActive := q.approval c (tokStr t) } ∧
      (sys p me honest).Steps (w, []) (w', []) ∧ w'.st = s' := by
  have hr := Spec.Run.reach h
  have hv := (hr.wf.asks _ _ ha).valid
  have hk := (hr.wf.asks _ _ ha).key
  cases hk
  have hd' : ((sys p me honest).ctx w q).q.approval a.collection (tokStr a.tokenId) ≠ a.isActive := hd
  have hex : execute p ((sys p me honest).ctx w q) sender [] (.syncAsk a.collection a.tokenId) w.st =
      .ok ({ w.st with asks := w.st.asks.insert (a.collection, a.tokenId) { a with isActive := q.approval a.collection (tokStr a.tokenId) } },
        askHook w.st { a with isActive := q.approval a.collection (tokStr a.tokenId) } .update) := by
    simp only [execute, addrValidate, hv, if_true, ok_bind, executeSyncAsk, nonpayable_go, onlyOperator, ensure_eq hop, ha, orErr,
      ensure_eq hd']
    rfl
  obtain ⟨w', h1, h2, _⟩ := complete h hq hne hex (handed_hooks _ _) (.hooks _ _)
  exact ⟨_, _, w', hex, AMap.get?_insert_self _ _ _, h1, h2⟩

/-- An operator can remove a listing that has expired, or whose token is reported as gone or not approved. -/
theorem C103_ask {a : Ask} (ha : w.st.asks.get? (c, t) = some a)
    (hs : q.ownerOf c (tokStr t) = none ∨ q.approval c (tokStr t) = false ∨ a.expiresAt ≤ w.time) :
    ∃ s' msgs w', execute p ((sys p me honest).ctx w q) sender [] (.removeStaleAsk c t) w.st = .ok (s', msgs) ∧
      s'.asks.get? (c, t) = none ∧ (sys p me honest).Steps (w, []) (w', []) ∧ w'.st = s' := by
  have hr := Spec.Run.reach h
  have hv := (hr.wf.asks _ _ ha).valid
  have hk := (hr.wf.asks _ _ ha).key
  cases hk
  have hs' : ¬ ((((sys p me honest).ctx w q).q.ownerOf a.collection (tokStr a.tokenId)).isSome = true ∧
      ((sys p me honest).ctx w q).q.approval a.collection (tokStr a.tokenId) = true ∧
      ¬ a.expiresAt ≤ ((sys p me honest).ctx w q).time) := by
    rintro ⟨x1, x2, x3⟩
    rcases hs with hs | hs | hs
    · have : (q.ownerOf a.collection (tokStr a.tokenId)).isSome = true := x1
      rw [hs] at this; cases this
    · have : q.approval a.collection (tokStr a.tokenId) = true := x2
      rw [hs] at this; cases this
    · exact x3 hs
  have hex : execute p ((sys p me honest).ctx w q) sender [] (.removeStaleAsk a.collection a.tokenId) w.st =
      .ok ({ w.st with asks := w.st.asks.erase (a.collection, a.tokenId) }, askHook w.st a .delete) := by
    simp only [execute, addrValidate, hv, if_true, ok_bind, executeRemoveStaleAsk, nonpayable_go, onlyOperator, ensure_eq hop, ha, orErr,
      ensure_eq hs']
  obtain ⟨w', h1, h2, _⟩ := complete h hq hne hex (handed_hooks _ _) (.hooks _ _)
  exact ⟨_, _, w', hex, AMap.get?_erase_self _ _, h1, h2⟩

/-- An operator can remove a bid once the stale duration (`n` seconds) has passed since its expiry, if the reward (`r` basis
points) is at least one unit and less than the bid: the bidder has the rest back. -/
theorem C103_bid {b : Addr} {o : Bid} {n r : Nat} (hb : w.st.bids.get? (c, t, b) = some o) (hvb : p.valid b = true)
    (hd : w.st.params.staleBidDuration = .time n) (hst : o.expiresAt + n * NS ≤ w.time) (ht : w.time ≤ U64MAX)
    (hrw : w.st.params.bidRemovalReward = percent r) (h0 : 0 < share r o.price) (h1 : share r o.price < o.price)
    (hfit : o.price * 100 ≤ U128MAX) (hbs : b ≠ sender) :
    ∃ s' msgs w', execute p ((sys p me honest).ctx w q) sender [] (.removeStaleBid c t b) w.st = .ok (s', msgs) ∧
      s'.bids.get? (c, t, b) = none ∧ (sys p me honest).Steps (w, []) (w', []) ∧ w'.st = s' ∧
      w'.bank b ustars = w.bank b ustars + (o.price - share r o.price) ∧
      w'.bank sender ustars = w.bank sender ustars + share r o.price := by
  have hr := Spec.Run.reach h
  have hg := hr.wf.bids _ _ hb
  have hv := hg.valid
  have hk := hg.key
  cases hk
  have hck : checkStale ((sys p me honest).ctx w q).time o.expiresAt w.st.params.staleBidDuration = .ok () :=
    checkStale_go (now := w.time) hd hst ht
  have hmul := reward_go hr.wf.params hrw hfit
  have hshare : o.price * percent r / ONE / 100 = share r o.price := percent_share _ _
  have hsub : subChk o.price (share r o.price) = .ok (o.price - share r o.price) := sub_go h1
  have hex : execute p ((sys p me honest).ctx w q) sender [] (.removeStaleBid o.collection o.tokenId o.bidder) w.st =
      .ok ({ w.st with bids := w.st.bids.erase (o.collection, o.tokenId, o.bidder) },
        .send o.bidder [⟨NATIVE, o.price - share r o.price⟩] :: .send sender [⟨NATIVE, share r o.price⟩] ::
          bidHook w.st o .delete) := staleBid_go hv hvb hop hb hck hmul hshare hsub
  obtain ⟨w', g1, g2, g3, _⟩ := complete h hq hne hex (handed_hooks _ _)
    (NoZero.append (a := [_]) (NoZero.one (Nat.sub_pos_of_lt h1)) (NoZero.append (a := [_]) (NoZero.one h0) (.hooks _ _)))
  refine ⟨_, _, w', hex, AMap.get?_erase_self _ _, g1, g2, ?_, ?_⟩
  · rw [g3 _ _ hg.bidder, ustars_eq]
    simp only [gets, bidHook, gets_hooks, if_true, if_neg (Ne.symm hbs), nat_coin, nat_native, Nat.add_zero]
  · rw [g3 _ _ hne, ustars_eq]
    simp only [gets, bidHook, gets_hooks, if_true, if_neg hbs, nat_coin, nat_native, Nat.add_zero, Nat.zero_add]

/-- The same for collection bids. -/
theorem C103_cbid {b : Addr} {o : CBid} {n r : Nat} (hb : w.st.cbids.get? (c, b) = some o) (hvb : p.valid b = true)
    (hd : w.st.params.staleBidDuration = .time n) (hst : o.expiresAt + n * NS ≤ w.time) (ht : w.time ≤ U64MAX)
    (hrw : w.st.params.bidRemovalReward = percent r) (h0 : 0 < share r o.price) (h1 : share r o.price < o.price)
    (hfit : o.price * 100 ≤ U128MAX) (hbs : b ≠ sender) :
    ∃ s' msgs w', execute p ((sys p me honest).ctx w q) sender [] (.removeStaleCollectionBid c b) w.st = .ok (s', msgs) ∧
      s'.cbids.get? (c, b) = none ∧ (sys p me honest).Steps (w, []) (w', []) ∧ w'.st = s' ∧
      w'.bank b ustars = w.bank b ustars + (o.price - share r o.price) ∧
      w'.bank sender ustars = w.bank sender ustars + share r o.price := by
  have hr := Spec.Run.reach h
  have hg := hr.wf.cbids _ _ hb
  have hv := hg.valid
  have hk := hg.key
  cases hk
  have hck : checkStale ((sys p me honest).ctx w q).time o.expiresAt w.st.params.staleBidDuration = .ok () :=
    checkStale_go (now := w.time) hd hst ht
  have hmul := reward_go hr.wf.params hrw hfit
  have hshare : o.price * percent r / ONE / 100 = share r o.price := percent_share _ _
  have hsub : subChk o.price (share r o.price) = .ok (o.price - share r o.price) := sub_go h1
  have hex : execute p ((sys p me honest).ctx w q) sender [] (.removeStaleCollectionBid o.collection o.bidder) w.st =
      .ok ({ w.st with cbids := w.st.cbids.erase (o.collection, o.bidder) },
        .send o.bidder [⟨NATIVE, o.price - share r o.price⟩] :: .send sender [⟨NATIVE, share r o.price⟩] ::
          cbidHook w.st o .delete) := staleCBid_go hv hvb hop hb hck hmul hshare hsub
  obtain ⟨w', g1, g2, g3, _⟩ := complete h hq hne hex (handed_hooks _ _)
    (NoZero.append (a := [_]) (NoZero.one (Nat.sub_pos_of_lt h1)) (NoZero.append (a := [_]) (NoZero.one h0) (.hooks _ _)))
  refine ⟨_, _, w', hex, AMap.get?_erase_self _ _, g1, g2, ?_, ?_⟩
  · rw [g3 _ _ hg.bidder, ustars_eq]
    simp only [gets, cbidHook, gets_hooks, if_true, if_neg (Ne.symm hbs), nat_coin, nat_native, Nat.add_zero]
  · rw [g3 _ _ hne, ustars_eq]
    simp only [gets, cbidHook, gets_hooks, if_true, if_neg hbs, nat_coin, nat_native, Nat.add_zero, Nat.zero_add]
end

namespace Sample
example := C102_remove vrun5 (q := qw v5) (fun _ _ _ => rfl) (sender := alice) (c := coll) (t := 1) trivial (by decide +kernel) (by decide)
  (a := ⟨.fixedPrice, coll, 1, alice, 101, none, none, some 500, 2000 * NSs, true⟩) (by decide +kernel)
example := C102_price vrun5 (q := qw v5) (fun _ _ _ => rfl) (sender := alice) (c := coll) (t := 1) trivial (by decide +kernel) (by decide)
  (a := ⟨.fixedPrice, coll, 1, alice, 101, none, none, some 500, 2000 * NSs, true⟩) (x := 90) (by decide +kernel) rfl (by decide +kernel)
  (by decide) (by decide +kernel)
example := C102_reject run3 (q := qw w3) (fun _ _ _ => rfl) (sender := alice) (c := coll) (t := 1) trivial (by decide +kernel) (by decide)
  (b := bob) (o := ⟨coll, 1, bob, 60, some 300, 3000 * NSs⟩) (by decide +kernel) (by decide)
/-- the marketplace is reported as not approved any more -/
def qoff (w : World State) : Queries := { qw w with approval := fun _ _ => false }
example := C103_sync vrun5 (q := qoff v5) (fun _ _ _ => rfl) (sender := oper) (c := coll) (t := 1) (by decide +kernel) (by decide)
  (a := ⟨.fixedPrice, coll, 1, alice, 101, none, none, some 500, 2000 * NSs, true⟩) (by decide +kernel) (by decide)
example := C103_ask vrun5 (q := qoff v5) (fun _ _ _ => rfl) (sender := oper) (c := coll) (t := 1) (by decide +kernel) (by decide)
  (a := ⟨.fixedPrice, coll, 1, alice, 101, none, none, some 500, 2000 * NSs, true⟩) (by decide +kernel) (.inr (.inl rfl))
/-- the bids of bob and carol have run out -/
def v6 : World State := { w3 with time := 4000 * NSs, height := 8 }
theorem vrun6 : Run P self hon (v6, []) :=
  Spec.Run.step run3 (Sys.Step.block (S := M) w3 (4000 * NSs) 8 (by decide +kernel) (by decide +kernel))
example := C103_bid vrun6 (q := qw v6) (fun _ _ _ => rfl) (sender := oper) (c := coll) (t := 1) (by decide +kernel) (by decide)
  (b := bob) (o := ⟨coll, 1, bob, 60, some 300, 3000 * NSs⟩) (n := 100) (r := 500) (by decide +kernel) (by decide) (by decide +kernel)
  (by decide +kernel) (by decide +kernel) (by decide +kernel) (by decide +kernel) (by decide +kernel) (by decide +kernel) (by decide)
example := C103_cbid vrun6 (q := qw v6) (fun _ _ _ => rfl) (sender := oper) (c := coll) (by decide +kernel) (by decide)
  (b := carol) (o := ⟨coll, carol, 50, none, 3000 * NSs⟩) (n := 100) (r := 500) (by decide +kernel) (by decide) (by decide +kernel)
  (by decide +kernel) (by decide +kernel) (by decide +kernel) (by decide +kernel) (by decide +kernel) (by decide +kernel) (by decide)
end Sample

end Verif.V1

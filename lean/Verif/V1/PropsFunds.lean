/-
Marketplace v1, properties about funds, withdrawal, stale orders, hooks and parameters: C44, C47, C48, C53, C54, C55.
-/
import Verif.V1.Hooks
import Verif.V1.Sample

namespace Verif.V1
open Verif Spec

variable {p : Params} {me : Addr} {honest : Addr → Prop}
variable {ctx : Ctx} {sender : Addr} {funds : List Coin} {m : Exec} {s s' : State} {msgs : List Msg}

/-! ### C44 -/

/-- At every point of every run, with any messages still pending, the contract's balance covers all open bids and all payments
still to be made. Payments are only ever made in the native denom. -/
theorem C44_backed {w : World State} {pending : List Msg} (h : Run p me honest (w, pending)) :
    openBids w.st + paidOut ustars pending ≤ w.bank me ustars ∧
    ∀ d, d ≠ ustars → paidOut d pending ≤ w.bank me d := by
  have hs := Spec.Run.solvent h
  constructor
  · have := hs ustars
    rw [outflow_eq, ustars_eq, escrow, nat_native] at this
    rw [ustars_eq]; exact this
  · intro d _
    have := hs d
    rw [outflow_eq] at this
    exact Nat.le_trans (Nat.le_add_left _ _) this

example := C44_backed Sample.run4

/-! ### C47 -/

/-- Steps of a withdrawal: call, refund, hook notifications. -/
theorem withdraw_steps {w : World State} {to : Addr} {n : Nat} {s' : State} {hs : List Msg}
    (hne : to ≠ me) (hpos : 0 < n) (hbal : ∀ d, amountOf d [⟨NATIVE, n⟩] ≤ w.bank me d) (hh : AllHooks hs) (q : Queries)
    (hq : (sys p me honest).queriesOk w q)
    (hex : execute p ((sys p me honest).ctx w q) to [] m w.st = .ok (s', .send to [⟨NATIVE, n⟩] :: hs)) :
    (sys p me honest).Steps (w, []) ({ w with bank := moveFunds w.bank me to [⟨NATIVE, n⟩], st := s' }, []) := by
  have h1 := Sys.Step.call (S := sys p me honest) w [] to [] m q s' _ trivial hne (fun d => Nat.zero_le _) hq hex
  rw [List.append_nil] at h1
  have hb : moveFunds w.bank to (sys p me honest).self [] = w.bank := by
    funext x d; simp [moveFunds, amountOf]
  rw [hb] at h1
  have h2 := Sys.Step.send (S := sys p me honest) { w with st := s' } to [⟨NATIVE, n⟩] hs (by simp) (by simpa using hpos) hbal
  have h3 := hooks_skip (S := sys p me honest) hh { w with bank := moveFunds w.bank me to [⟨NATIVE, n⟩], st := s' } []
  rw [List.append_nil] at h3
  exact .trans (.tail (.single h1) h2) h3

/-- Between transactions, the bidder of any open bid can withdraw it, whatever the collection answers and whatever the hook
contracts do: the call is accepted and can be completed; the price is back with the bidder, only the bid is gone. -/
theorem C47_bid {w : World State} (h : Run p me honest (w, [])) {k : BidKey} {b : Bid} (hb : w.st.bids.get? k = some b)
    (q : Queries) (hq : (sys p me honest).queriesOk w q) :
    ∃ s' hs, execute p ((sys p me honest).ctx w q) b.bidder [] (.removeBid b.collection b.tokenId) w.st =
        .ok (s', .send b.bidder [⟨ustars, b.price⟩] :: hs) ∧ (∀ x ∈ hs, IsHook x) ∧
      s' = { w.st with bids := s'.bids } ∧ s'.bids.get? k = none ∧
      (∀ k', k' ≠ k → s'.bids.get? k' = w.st.bids.get? k') ∧
      ∃ w', (sys p me honest).Steps (w, []) (w', []) ∧ w'.st = s' ∧ w'.owner = w.owner ∧
        w'.bank b.bidder ustars = w.bank b.bidder ustars + b.price := by
  have hg := (Spec.Run.reach h).wf.bids _ _ hb
  have hk := hg.key
  subst hk
  have hex : execute p ((sys p me honest).ctx w q) b.bidder [] (.removeBid b.collection b.tokenId) w.st =
      .ok ({ w.st with bids := w.st.bids.erase (b.collection, b.tokenId, b.bidder) },
        .send b.bidder [⟨NATIVE, b.price⟩] :: bidHook w.st b .delete) := by
    simp [execute, executeRemoveBid, addrValidate, hg.valid, nonpayable, ensure, hb, orErr, bind, Except.bind]
  rw [ustars_eq]
  refine ⟨_, _, hex, allHooks_map _ _, rfl, by simp, ?_, _,
    withdraw_steps hg.bidder hg.pos ?_ (allHooks_map _ _) q hq hex, rfl, rfl, ?_⟩
  · intro id' hn; simp [AMap.get?_erase, Ne.symm hn]
  · intro d
    have h1 := Spec.Run.solvent h d
    have h2 := AMap.le_sum Bid.price hb
    simp only [outflow_nil, escrow, openBids_eq, nat_coin] at *
    refine Nat.le_trans (nat_le ?_) h1
    omega
  · refine (moveFunds_to (Ne.symm hg.bidder) NATIVE).trans ?_
    rw [nat_coin, nat_native]

/-- The same for collection bids. -/
theorem C47_cbid {w : World State} (h : Run p me honest (w, [])) {k : CBidKey} {b : CBid} (hb : w.st.cbids.get? k = some b)
    (q : Queries) (hq : (sys p me honest).queriesOk w q) :
    ∃ s' hs, execute p ((sys p me honest).ctx w q) b.bidder [] (.removeCollectionBid b.collection) w.st =
        .ok (s', .send b.bidder [⟨ustars, b.price⟩] :: hs) ∧ (∀ x ∈ hs, IsHook x) ∧
      s' = { w.st with cbids := s'.cbids } ∧ s'.cbids.get? k = none ∧
      (∀ k', k' ≠ k → s'.cbids.get? k' = w.st.cbids.get? k') ∧
      ∃ w', (sys p me honest).Steps (w, []) (w', []) ∧ w'.st = s' ∧ w'.owner = w.owner ∧
        w'.bank b.bidder ustars = w.bank b.bidder ustars + b.price := by
  have hg := (Spec.Run.reach h).wf.cbids _ _ hb
  have hk := hg.key
  subst hk
  have hex : execute p ((sys p me honest).ctx w q) b.bidder [] (.removeCollectionBid b.collection) w.st =
      .ok ({ w.st with cbids := w.st.cbids.erase (b.collection, b.bidder) },
        .send b.bidder [⟨NATIVE, b.price⟩] :: cbidHook w.st b .delete) := by
    simp [execute, executeRemoveCollectionBid, addrValidate, hg.valid, nonpayable, ensure, hb, orErr, bind, Except.bind]
  rw [ustars_eq]
  refine ⟨_, _, hex, allHooks_map _ _, rfl, by simp, ?_, _,
    withdraw_steps hg.bidder hg.pos ?_ (allHooks_map _ _) q hq hex, rfl, rfl, ?_⟩
  · intro id' hn; simp [AMap.get?_erase, Ne.symm hn]
  · intro d
    have h1 := Spec.Run.solvent h d
    have h2 := AMap.le_sum CBid.price hb
    simp only [outflow_nil, escrow, openBids_eq, nat_coin] at *
    refine Nat.le_trans (nat_le ?_) h1
    omega
  · refine (moveFunds_to (Ne.symm hg.bidder) NATIVE).trans ?_
    rw [nat_coin, nat_native]

example := C47_bid Sample.run3 (k := (Sample.coll, 1, Sample.bob)) (b := ⟨Sample.coll, 1, Sample.bob, 60, some 300, 3000000000000⟩)
  (by decide +kernel) (Sample.qw Sample.w3) (fun _ _ _ => rfl)
example := C47_cbid Sample.run3 (k := (Sample.coll, Sample.carol)) (b := ⟨Sample.coll, Sample.carol, 50, none, 3000000000000⟩)
  (by decide +kernel) (Sample.qw Sample.w3) (fun _ _ _ => rfl)

/-! ### C48 -/

/-- Bids are stored under their own collection, token and bidder: there is at most one per bidder and token. -/
theorem C48_unique (hr : Reach p me s) {k k' : BidKey} {b b' : Bid} (h : s.bids.get? k = some b) (h' : s.bids.get? k' = some b')
    (hc : b.collection = b'.collection) (ht : b.tokenId = b'.tokenId) (hb : b.bidder = b'.bidder) : k = k' ∧ b = b' := by
  have h1 := (hr.wf.bids _ _ h).key
  have h2 := (hr.wf.bids _ _ h').key
  have h3 : k = k' := by rw [← h1, ← h2, hc, ht, hb]
  subst h3
  rw [h] at h'
  exact ⟨rfl, Option.some.inj h'⟩

theorem C48_unique_cbid (hr : Reach p me s) {k k' : CBidKey} {b b' : CBid} (h : s.cbids.get? k = some b)
    (h' : s.cbids.get? k' = some b') (hc : b.collection = b'.collection) (hb : b.bidder = b'.bidder) : k = k' ∧ b = b' := by
  have h1 := (hr.wf.cbids _ _ h).key
  have h2 := (hr.wf.cbids _ _ h').key
  have h3 : k = k' := by rw [← h1, ← h2, hc, hb]
  subst h3
  rw [h] at h'
  exact ⟨rfl, Option.some.inj h'⟩

/-- Bidding on a token where the caller has a standing bid: the first thing paid is exactly the old price, to the caller. If the
new bid is stored, its price is what was paid with the call and nothing else is paid; if it buys, no bid remains. -/
theorem C48_replace {c : Addr} {t : Nat} (hb : bidsOn c t m) (h : execute p ctx sender funds m s = .ok (s', msgs)) :
    ∃ rest, core msgs = (match s.bids.get? (c, t, sender) with
        | some old => [.send sender [⟨ustars, old.price⟩]]
        | none => []) ++ rest ∧
      ((s'.bids.get? (c, t, sender) = none ∧ handed msgs ≠ []) ∨
       (∃ new, s'.bids.get? (c, t, sender) = some new ∧ new.bidder = sender ∧ funds = [⟨ustars, new.price⟩] ∧ rest = [])) ∧
      (∀ k, k ≠ (c, t, sender) → s'.bids.get? k = s.bids.get? k) := by
  obtain ⟨b, hm, rfl, rfl⟩ := on_bidArgs hb
  have hold : refund ((s.bids.get? (b.coll, b.tok, sender)).map Bid.price) sender =
      (match s.bids.get? (b.coll, b.tok, sender) with
       | some b => [.send sender [⟨NATIVE, b.price⟩]]
       | none => []) := by
    cases s.bids.get? (b.coll, b.tok, sender) <;> rfl
  rw [ustars_eq, ← hold]
  have e := execute_eff h
  cases e with
  | bidSaved m b' price hm' hv hfinder hfee hfunds =>
    rw [hm] at hm'; cases hm'
    refine ⟨[], ?_, Or.inr ⟨_, AMap.get?_insert_self _ _ _, rfl, hfunds, rfl⟩, ?_⟩
    · rw [core_append, (refund_pay _ _).core, core_bidHook]
    · intro k hk; simp [AMap.get?_insert, AMap.get?_erase, Ne.symm hk]
  | bought m b' price ask sale hm' hv hfinder hfee hfunds hpos hmin ha hlive hact hres hty hprice hown hsale =>
    rw [hm] at hm'; cases hm'
    refine ⟨core sale, ?_, Or.inl ⟨AMap.get?_erase_self _ _, ?_⟩, ?_⟩
    · rw [core_append, (refund_pay _ _).core]
    · cases hsale with
      | mk pay _ => simp [handed_append, handed]
    · intro k hk; simp [AMap.get?_erase, Ne.symm hk]
  | _ => exact absurd hb (fun h => h)

/-- The same for collection bids, which are always stored. -/
theorem C48_replace_cbid (hr : Reach p me s) {c : Addr} {e : Nat} {f : Option Nat}
    (h : execute p ctx sender funds (.setCollectionBid c e f) s = .ok (s', msgs)) :
    core msgs = (match s.cbids.get? (c, sender) with
        | some old => [.send sender [⟨ustars, old.price⟩]]
        | none => []) ∧
      (∃ new, s'.cbids.get? (c, sender) = some new ∧ new.bidder = sender ∧ funds = [⟨ustars, new.price⟩]) ∧
      (∀ k, k ≠ (c, sender) → s'.cbids.get? k = s.cbids.get? k) := by
  rw [ustars_eq]
  have e := execute_eff h
  cases e with
  | setCBid coll expires fee price hv hfunds =>
    refine ⟨?_, ⟨_, AMap.get?_insert_self _ _ _, rfl, hfunds⟩, ?_⟩
    · rw [core_append, core_cbidHook, List.append_nil]
      cases hb : s.cbids.get? (c, sender) with
      | none => rfl
      | some b =>
        have hk := (hr.wf.cbids _ _ hb).key
        simp only [Prod.mk.injEq] at hk
        simp only [hk.2]; rfl
    · intro k hk; simp [AMap.get?_insert, Ne.symm hk]
  | bidSaved m b price hm => simp [bidArgs] at hm
  | bought m b price ask sale hm => simp [bidArgs] at hm

example := C48_unique Sample.r6 (k := (Sample.coll, 1, Sample.bob)) (k' := (Sample.coll, 1, Sample.bob))
  (b := ⟨Sample.coll, 1, Sample.bob, 70, some 300, 3000000000000⟩) (b' := ⟨Sample.coll, 1, Sample.bob, 70, some 300, 3000000000000⟩)
  (by decide +kernel) (by decide +kernel) rfl rfl rfl
example := C48_replace (m := Sample.bidMsg) (c := Sample.coll) (t := 1) ⟨rfl, rfl⟩ (Sample.run_eq (c := Sample.ctx 1001) (sender := Sample.bob)
  (funds := Sample.us 70) (m := Sample.bidMsg) (s := Sample.s5) (by decide +kernel))
example : core (Sample.run (Sample.ctx 1001) Sample.bob (Sample.us 70) Sample.bidMsg Sample.s5).2 = [.send Sample.bob (Sample.us 60)] := by
  decide +kernel
example := C48_replace_cbid Sample.r6 (Sample.run_eq (c := Sample.ctx 1001) (sender := Sample.carol)
  (funds := Sample.us 55) (m := .setCollectionBid Sample.coll (3000 * Sample.NSs) none) (s := Sample.s6) (by decide +kernel))
example := C48_unique_cbid Sample.r6 (k := (Sample.coll, Sample.carol)) (k' := (Sample.coll, Sample.carol))
  (b := ⟨Sample.coll, Sample.carol, 50, none, 3000000000000⟩) (b' := ⟨Sample.coll, Sample.carol, 50, none, 3000000000000⟩)
  (by decide +kernel) (by decide +kernel) rfl rfl

/-! ### C53 -/

/-- A stale bid is removed only by an operator, only after its expiry plus the stale duration (`n` seconds); the reward is the
configured share `r` (basis points) of the price, and the rest goes to the bidder. -/
theorem C53_bid (hr : Reach p me s) {c : Addr} {t : Nat} {bidder : Addr}
    (h : execute p ctx sender funds (.removeStaleBid c t bidder) s = .ok (s', msgs)) :
    ∃ b n r, s.bids.get? (c, t, bidder) = some b ∧ sender ∈ s.params.operators ∧ s.params.staleBidDuration = .time n ∧
      b.expiresAt + n * 1000000000 ≤ ctx.time ∧ s.params.bidRemovalReward = percent r ∧ r ≤ 10000 ∧ share r b.price ≤ b.price ∧
      core msgs = [.send bidder [⟨ustars, b.price - share r b.price⟩], .send sender [⟨ustars, share r b.price⟩]] ∧
      s' = { s with bids := s.bids.erase (c, t, bidder) } := by
  obtain ⟨r, h1, h2⟩ := hr.wf.params.reward
  rw [ustars_eq]
  have e := execute_eff h
  cases e with
  | staleBid coll tok bidder' bid n hv hf hop hb hdur hst hle =>
    have hk := (hr.wf.bids _ _ hb).key
    simp only [Prod.mk.injEq] at hk
    rw [h1, percent_share] at hle
    refine ⟨bid, n, r, hb, hop, hdur, hst, h1, h2, hle, ?_, rfl⟩
    rw [core_send, core_send, core_bidHook, h1, percent_share, hk.2.2]
  | bidSaved m b price hm => simp [bidArgs] at hm
  | bought m b price ask sale hm => simp [bidArgs] at hm

/-- The same for collection bids. -/
theorem C53_cbid (hr : Reach p me s) {c : Addr} {bidder : Addr}
    (h : execute p ctx sender funds (.removeStaleCollectionBid c bidder) s = .ok (s', msgs)) :
    ∃ b n r, s.cbids.get? (c, bidder) = some b ∧ sender ∈ s.params.operators ∧ s.params.staleBidDuration = .time n ∧
      b.expiresAt + n * 1000000000 ≤ ctx.time ∧ s.params.bidRemovalReward = percent r ∧ r ≤ 10000 ∧ share r b.price ≤ b.price ∧
      core msgs = [.send bidder [⟨ustars, b.price - share r b.price⟩], .send sender [⟨ustars, share r b.price⟩]] ∧
      s' = { s with cbids := s.cbids.erase (c, bidder) } := by
  obtain ⟨r, h1, h2⟩ := hr.wf.params.reward
  rw [ustars_eq]
  have e := execute_eff h
  cases e with
  | staleCBid coll bidder' bid n hv hf hop hb hdur hst hle =>
    have hk := (hr.wf.cbids _ _ hb).key
    simp only [Prod.mk.injEq] at hk
    rw [h1, percent_share] at hle
    refine ⟨bid, n, r, hb, hop, hdur, hst, h1, h2, hle, ?_, rfl⟩
    rw [core_send, core_send, core_cbidHook, h1, percent_share, hk.2]
  | bidSaved m b price hm => simp [bidArgs] at hm
  | bought m b price ask sale hm => simp [bidArgs] at hm

/-- A standing bid disappears only in these ways: withdrawn or replaced by the bidder, accepted or rejected by the token's owner,
or removed as stale. -/
theorem C53_frame (h : execute p ctx sender funds m s = .ok (s', msgs)) {k : BidKey} (hne : s'.bids.get? k ≠ s.bids.get? k) :
    (sender = k.2.2 ∧ (bidsOn k.1 k.2.1 m ∨ m = .removeBid k.1 k.2.1)) ∨
    (ctx.q.ownerOf k.1 (tokStr k.2.1) = some sender ∧ ((∃ f, m = .acceptBid k.1 k.2.1 k.2.2 f) ∨ m = .rejectBid k.1 k.2.1 k.2.2)) ∨
    (sender ∈ s.params.operators ∧ m = .removeStaleBid k.1 k.2.1 k.2.2) := by
  have ers : ∀ k' : BidKey, (s.bids.erase k').get? k ≠ s.bids.get? k → k' = k := by
    intro k' hk
    rw [AMap.get?_erase] at hk
    split at hk
    case isTrue e => exact e
    · exact absurd rfl hk
  have e := execute_eff h
  cases e with
  | bidSaved m b price hm =>
    have hk : (b.coll, b.tok, sender) = k := by
      apply Classical.byContradiction
      intro hk
      exact hne (by simp [AMap.get?_insert, AMap.get?_erase, hk])
    subst hk
    exact Or.inl ⟨rfl, Or.inl (bidArgs_on hm)⟩
  | bought m b price ask sale hm =>
    have hk := ers _ hne
    subst hk
    exact Or.inl ⟨rfl, Or.inl (bidArgs_on hm)⟩
  | removeBid => have hk := ers _ hne; subst hk; exact Or.inl ⟨rfl, Or.inr rfl⟩
  | acceptBid coll tok bidder finder bid sale hv hf hown =>
    have hk := ers _ hne; subst hk; exact Or.inr (Or.inl ⟨hown, Or.inl ⟨_, rfl⟩⟩)
  | rejectBid coll tok bidder bid hv hf hown =>
    have hk := ers _ hne; subst hk; exact Or.inr (Or.inl ⟨hown, Or.inr rfl⟩)
  | staleBid coll tok bidder bid n hv hf hop =>
    have hk := ers _ hne; subst hk; exact Or.inr (Or.inr ⟨hop, rfl⟩)
  | _ => exact absurd rfl hne

example := C53_bid Sample.r6 (Sample.run_eq (c := Sample.ctx 3100) (sender := Sample.oper) (funds := [])
  (m := .removeStaleBid Sample.coll 1 Sample.bob) (by decide +kernel))
example : Sample.ok (Sample.ctx 3099) Sample.oper [] (.removeStaleBid Sample.coll 1 Sample.bob) Sample.s6 = false := by decide +kernel
example : core (Sample.run (Sample.ctx 3100) Sample.oper [] (.removeStaleBid Sample.coll 1 Sample.bob) Sample.s6).2 =
    [.send Sample.bob (Sample.us 67), .send Sample.oper (Sample.us 3)] := by decide +kernel
example := C53_cbid Sample.r6 (Sample.run_eq (c := Sample.ctx 3100) (sender := Sample.oper) (funds := [])
  (m := .removeStaleCollectionBid Sample.coll Sample.carol) (by decide +kernel))
example := C53_frame (k := (Sample.coll, 1, Sample.bob)) (Sample.run_eq (c := Sample.ctx 3100) (sender := Sample.oper) (funds := [])
  (m := .removeStaleBid Sample.coll 1 Sample.bob) (s := Sample.s6) (by decide +kernel)) (by decide +kernel)

/-! ### C54 -/

/-- With all hooks unregistered every call has the same outcome: same success or error, same orders and parameters, same
messages except for the notifications. -/
theorem C54_same (ctx : Ctx) (sender : Addr) (funds : List Coin) (m : Exec) (s : State) :
    execute p ctx sender funds m (unhook s) = (execute p ctx sender funds m s).map (fun r => (unhook r.1, core r.2)) :=
  execute_bare ctx sender funds m s

/-- Notifications come after all other messages, and whatever is done in a world they are delivered in, they can always be
completed without effect: a failing hook contract cannot make the transaction fail. -/
theorem C54_last (h : execute p ctx sender funds m s = .ok (s', msgs)) :
    ∃ hs, msgs = core msgs ++ hs ∧ (∀ x ∈ hs, IsHook x) ∧
      ∀ w rest, (sys p me honest).Steps (w, hs ++ rest) (w, rest) := by
  obtain ⟨hs, h1, h2⟩ := hooks_last (execute_eff h)
  exact ⟨hs, h1, h2, fun w rest => hooks_skip h2 w rest⟩

/-- Only registered contracts are notified. -/
theorem C54_registered (h : execute p ctx sender funds m s = .ok (s', msgs)) {to : Addr} {i : HookInfo} (hm : .hook to i ∈ msgs) :
    to ∈ s.askHooks ∨ to ∈ s.bidHooks ∨ to ∈ s.saleHooks ∨ to ∈ s.cbidHooks := by
  have hk : ∀ {hs : List Addr} {f : Addr → HookInfo}, Msg.hook to i ∈ hs.map (fun h => Msg.hook h (f h)) → to ∈ hs := by
    intro hs f h
    obtain ⟨x, hx, e⟩ := List.mem_map.mp h
    cases e; exact hx
  have hpay : ∀ {ms : List Msg}, AllPay ms → Msg.hook to i ∉ ms := fun h hm => h _ hm
  have sold : ∀ {a : Ask} {price : Nat} {buyer : Addr} {finder recipient : Option Addr} {ms : List Msg},
      Sold ctx s a price buyer finder recipient ms → Msg.hook to i ∈ ms → to ∈ s.saleHooks := by
    intro a price buyer finder recipient ms h hm
    cases h with
    | mk pay h =>
      rcases List.mem_append.mp hm with hm | hm
      · rcases List.mem_append.mp hm with hm | hm
        · exact absurd hm (hpay h.pay)
        · simp at hm
      · exact hk hm
  have e := execute_eff h
  cases e with
  | setAsk =>
    rcases List.mem_append.mp hm with hm | hm
    · split at hm <;> simp at hm
    · exact Or.inl (hk hm)
  | removeAsk => exact Or.inl (hk hm)
  | updatePrice => exact Or.inl (hk hm)
  | syncAsk => exact Or.inl (hk hm)
  | staleAsk => exact Or.inl (hk hm)
  | bidSaved =>
    rcases List.mem_append.mp hm with hm | hm
    · exact absurd hm (hpay (refund_pay _ _))
    · exact Or.inr (Or.inl (hk hm))
  | bought m b price ask sale hm' hv hfinder hfee hfunds hpos hmin ha hlive hact hres hty hprice hown hsale =>
    rcases List.mem_append.mp hm with hm | hm
    · exact absurd hm (hpay (refund_pay _ _))
    · exact Or.inr (Or.inr (Or.inl (sold hsale hm)))
  | acceptBid coll tok bidder finder bid sale hv hf hown htr hb hlive hsale => exact Or.inr (Or.inr (Or.inl (sold hsale hm)))
  | acceptCBid coll tok bidder finder bid sale hv hf hown htr hb hlive hsale => exact Or.inr (Or.inr (Or.inl (sold hsale hm)))
  | removeBid =>
    rcases List.mem_cons.mp hm with hm | hm
    · cases hm
    · exact Or.inr (Or.inl (hk hm))
  | rejectBid =>
    rcases List.mem_cons.mp hm with hm | hm
    · cases hm
    · exact Or.inr (Or.inl (hk hm))
  | staleBid =>
    rcases List.mem_cons.mp hm with hm | hm
    · cases hm
    · rcases List.mem_cons.mp hm with hm | hm
      · cases hm
      · exact Or.inr (Or.inl (hk hm))
  | setCBid =>
    rcases List.mem_append.mp hm with hm | hm
    · split at hm <;> simp at hm
    · exact Or.inr (Or.inr (Or.inr (hk hm)))
  | removeCBid =>
    rcases List.mem_cons.mp hm with hm | hm
    · cases hm
    · exact Or.inr (Or.inr (Or.inr (hk hm)))
  | staleCBid =>
    rcases List.mem_cons.mp hm with hm | hm
    · cases hm
    · rcases List.mem_cons.mp hm with hm | hm
      · cases hm
      · exact Or.inr (Or.inr (Or.inr (hk hm)))

example : ∃ o, execute Sample.P (Sample.ctx 1002) Sample.carol (Sample.us 101) Sample.buyMsg Sample.s6 = .ok o ∧ o.2 ≠ core o.2 :=
  ⟨_, Sample.run_eq (by decide +kernel), by decide +kernel⟩
example := C54_last (me := Sample.self) (honest := Sample.hon) (Sample.run_eq (c := Sample.ctx 1002) (sender := Sample.carol)
  (funds := Sample.us 101) (m := Sample.buyMsg) (s := Sample.s6) (by decide +kernel))
example := C54_registered (Sample.run_eq (c := Sample.ctx 1002) (sender := Sample.carol) (funds := Sample.us 101) (m := Sample.buyMsg)
  (s := Sample.s6) (by decide +kernel)) (to := Sample.hk) (i := ⟨.sale, none, Sample.coll, some 1, 101, Sample.alice, some Sample.carol⟩)
  (by decide +kernel)

/-! ### C55 -/

/-- Fees and rewards are at most 10000 basis points (stored as that many percent, divided by 100 on use), expiry ranges are
ordered, and the stale duration is a time span. -/
theorem C55_bounds (hr : Reach p me s) :
    (∃ n, s.params.tradingFee = n * 10^16 ∧ n ≤ 10000) ∧ (∃ n, s.params.maxFindersFee = n * 10^16 ∧ n ≤ 10000) ∧
    (∃ n, s.params.bidRemovalReward = n * 10^16 ∧ n ≤ 10000) ∧ s.params.askExpiry.min ≤ s.params.askExpiry.max ∧
    s.params.bidExpiry.min ≤ s.params.bidExpiry.max ∧ ∃ n, s.params.staleBidDuration = .time n := by
  have h := hr.wf.params
  exact ⟨h.trading, h.finders, h.reward, h.ask, h.bid, h.stale⟩

/-- Calls never change parameters or hooks. -/
theorem C55_frame (h : execute p ctx sender funds m s = .ok (s', msgs)) :
    s'.params = s.params ∧ s'.askHooks = s.askHooks ∧ s'.bidHooks = s.bidHooks ∧ s'.saleHooks = s.saleHooks ∧
      s'.cbidHooks = s.cbidHooks := by
  have e := execute_eff h
  cases e <;> exact ⟨rfl, rfl, rfl, rfl, rfl⟩

/-- A parameter update changes exactly the named parameters, to the given values. -/
theorem C55_update {u : Update} (h : sudo p ctx (.updateParams u) s = .ok (s', msgs)) :
    s'.params.tradingFee = (match u.tradingFeeBps with | some n => n * 10^16 | none => s.params.tradingFee) ∧
    s'.params.maxFindersFee = (match u.maxFindersFeeBps with | some n => n * 10^16 | none => s.params.maxFindersFee) ∧
    s'.params.bidRemovalReward = (match u.bidRemovalRewardBps with | some n => n * 10^16 | none => s.params.bidRemovalReward) ∧
    s'.params.askExpiry = (match u.askExpiry with | some r => r | none => s.params.askExpiry) ∧
    s'.params.bidExpiry = (match u.bidExpiry with | some r => r | none => s.params.bidExpiry) ∧
    s'.params.minPrice = (match u.minPrice with | some n => n | none => s.params.minPrice) ∧
    s'.params.listingFee = (match u.listingFee with | some n => n | none => s.params.listingFee) ∧
    s'.params.staleBidDuration = (match u.staleBidDuration with | some n => .time n | none => s.params.staleBidDuration) ∧
    s'.params.operators = s.params.operators := by
  obtain ⟨e, _⟩ := sudo_eff h
  cases e with
  | params u c hops h1 h2 h3 h4 h5 h6 h7 h8 =>
    simp only [h1, h2, h3, h4, h5, h6, h7, h8, hops, and_true]
    refine ⟨?_, ?_, ?_, ?_, ?_, ?_, ?_, ?_⟩
    · cases u.tradingFeeBps <;> rfl
    · cases u.maxFindersFeeBps <;> rfl
    · cases u.bidRemovalRewardBps <;> rfl
    · cases u.askExpiry <;> rfl
    · cases u.bidExpiry <;> rfl
    · cases u.minPrice <;> rfl
    · cases u.listingFee <;> rfl
    · cases u.staleBidDuration <;> rfl

/-- Operators are added and removed one at a time. -/
theorem C55_operators {a : Addr} :
    (∀ o, sudo p ctx (.addOperator a) s = .ok (s', o) →
      (∀ x, x ∈ s'.params.operators ↔ x = a ∨ x ∈ s.params.operators)) ∧
    (s.params.operators.Nodup → ∀ o, sudo p ctx (.removeOperator a) s = .ok (s', o) →
      (∀ x, x ∈ s'.params.operators ↔ x ≠ a ∧ x ∈ s.params.operators)) := by
  constructor
  · intro o h x
    obtain ⟨e, _⟩ := sudo_eff h
    cases e with
    | addOp a hv h => simp only [List.mem_append, List.mem_singleton]; exact Or.comm
  · intro hn o h x
    obtain ⟨e, _⟩ := sudo_eff h
    cases e with
    | removeOp a hv h => exact hn.mem_erase_iff

example := C55_bounds Sample.r6
example := C55_frame (Sample.run_eq (c := Sample.ctx 1002) (sender := Sample.carol) (funds := Sample.us 101) (m := Sample.buyMsg)
  (s := Sample.s6) (by decide +kernel))
example := C55_update (u := { tradingFeeBps := some 300, bidExpiry := some ⟨5, 6⟩, staleBidDuration := some 3 })
  (Sample.srun_eq (c := Sample.ctx 1002) (s := Sample.s6) (by decide +kernel))
example := (C55_operators (a := Sample.bob)).1 _ (Sample.srun_eq (c := Sample.ctx 1002) (s := Sample.s6) (by decide +kernel))
example := (C55_operators (a := Sample.oper)).2 (by decide +kernel) _ (Sample.srun_eq (c := Sample.ctx 1002) (s := Sample.s6) (by decide +kernel))

end Verif.V1

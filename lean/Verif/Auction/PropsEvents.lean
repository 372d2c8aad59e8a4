/-
Properties C109–C110: what the events of the reserve auction tell an observer.
-/
import Verif.Auction.EventLemmas
import Verif.Auction.EventSpec
import Verif.Auction.Sample

namespace Verif.Auction
open Verif Spec

section
variable {p : Params}

theorem know_put {K V W : Type} [DecidableEq K] {f : K → Option W} {g : V → W} {m : AMap K V}
    (h : ∀ k, f k = (m.get? k).map g) (k : K) (v : V) {w : W} (hw : w = g v) :
    ∀ x, put f k (some w) x = ((m.insert k v).get? x).map g := by
  intro x
  simp only [put, AMap.get?_insert, h, hw]
  split <;> rfl

theorem know_del {K V W : Type} [DecidableEq K] {f : K → Option W} {g : V → W} {m : AMap K V}
    (h : ∀ k, f k = (m.get? k).map g) (k : K) : ∀ x, put f k none x = ((m.erase k).get? x).map g := by
  intro x
  simp only [put, AMap.get?_erase, h]
  split <;> rfl

theorem know_put' {K V : Type} [DecidableEq K] {f : K → Option V} {m : AMap K V} (h : ∀ k, f k = m.get? k)
    (k : K) (v : V) : ∀ x, put f k (some v) x = (m.insert k v).get? x := by
  intro x
  simp only [put, AMap.get?_insert, h]

theorem know_del' {K V : Type} [DecidableEq K] {f : K → Option V} {m : AMap K V} (h : ∀ k, f k = m.get? k)
    (k : K) : ∀ x, put f k none x = (m.erase k).get? x := by
  intro x
  simp only [put, AMap.get?_erase, h]

theorem replay_append (b : Book) : ∀ (l r : List Event), b.replay (l ++ r) = (b.replay l).bind fun b' => b'.replay r
  | [], _ => rfl
  | e :: l, r => by
    simp only [List.cons_append, Book.replay]
    cases b.see e with
    | none => rfl
    | some b' => exact replay_append b' l r

theorem replay_one (b : Book) (e : Event) : b.replay [e] = b.see e := by
  simp only [Book.replay]
  cases b.see e <;> rfl

/-- Stored auctions are priced in denoms that do not start with a digit. -/
def PlainAuctions (s : State) : Prop := ∀ k a, s.auctions.get? k = some a → PlainDenom a.reserve.denom

theorem plain_insert {s : State} (h : PlainAuctions s) {k : Key} {a : Auction} (ha : PlainDenom a.reserve.denom) :
    PlainAuctions { s with auctions := s.auctions.insert k a } := by
  intro k' a' h'
  simp only [AMap.get?_insert] at h'
  split at h'
  · cases h'; exact ha
  · exact h k' a' h'

theorem plain_erase {s : State} (h : PlainAuctions s) {k : Key} :
    PlainAuctions { s with auctions := s.auctions.erase k } := by
  intro k' a' h'
  simp only [AMap.get?_erase] at h'
  split at h'
  · cases h'
  · exact h k' a' h'

/-! ### One settlement -/

theorem see_settled {b : Book} {ctx : Ctx} {a : Auction} {c : Config} {s s' : State} {msgs : List Msg} {ev : Event}
    (hk : Knows b s) (ha : s.auctions.get? a.key = some a) (hhigh : a.highBid = none ↔ a.endTime = none)
    (h : SettledEv p ctx a c s s' msgs ev) : ∃ b', b.see ev = some b' ∧ Knows b' s' := by
  have hv : b.auctions (a.collection, a.tokenId) = some (view a) := by
    rw [hk.auctions]; change (s.auctions.get? a.key).map view = _; rw [ha]; rfl
  cases h with
  | postponed e' he =>
    refine ⟨{ b with auctions := put b.auctions a.key (some { view a with endTime := some e' }) }, ?_,
      { hk with auctions := know_put hk.auctions _ _ rfl }⟩
    have hh : (view a).highBid ≠ none := fun hn => he (hhigh.mp hn)
    simp [Book.see, postponeEvent, tokenOf, time, Event.get_mk, readTime_showTime, hv, hh, Auction.key]
  | sold hb roy pay hh hpay =>
    refine ⟨{ b with auctions := put b.auctions a.key none }, ?_, { hk with auctions := know_del hk.auctions _ }⟩
    have hh' : (view a).highBid = some hb := hh
    have hs : (view a).seller = a.seller := rfl
    simp [Book.see, settleEvent, tokenOf, num, Event.get_mk, readNat_showNat, hv, hh', hs, Auction.key]

theorem SettledEv.frame {ctx : Ctx} {a : Auction} {c : Config} {s s' : State} {msgs : List Msg} {ev : Event}
    (h : SettledEv p ctx a c s s' msgs ev) : ∀ k, k ≠ a.key → s'.auctions.get? k = s.auctions.get? k := by
  intro k hk
  cases h with
  | postponed =>
    simp only [AMap.get?_insert]
    exact if_neg (fun e => hk e.symm)
  | sold =>
    simp only [AMap.get?_erase]
    exact if_neg (fun e => hk e.symm)

theorem SettledEv.plain {ctx : Ctx} {a : Auction} {c : Config} {s s' : State} {msgs : List Msg} {ev : Event}
    (hp : PlainAuctions s) (ha : s.auctions.get? a.key = some a) (h : SettledEv p ctx a c s s' msgs ev) :
    PlainAuctions s' := by
  cases h with
  | postponed e' he => exact plain_insert hp (hp a.key a ha :)
  | sold => exact plain_erase hp

theorem stored_tail {ctx : Ctx} {a : Auction} {as : List Auction} {c : Config} {s s' : State} {msgs : List Msg}
    {ev : Event} (h : Stored s (a :: as)) (hs : SettledEv p ctx a c s s' msgs ev) : Stored s' as := by
  obtain ⟨h1, h2⟩ := h
  rw [List.map_cons, List.nodup_cons] at h2
  refine ⟨?_, h2.2⟩
  intro b hb
  rw [hs.frame b.key]
  · exact h1 b (List.mem_cons_of_mem _ hb)
  · intro e; exact h2.1 (e ▸ List.mem_map_of_mem hb)

theorem see_batch {ctx : Ctx} {as : List Auction} {c : Config} {s s' : State} {msgs : List Msg} {evs : List Event}
    (h : BatchEv p ctx c as s s' msgs evs) : ∀ {b : Book}, Knows b s → Stored s as → PlainAuctions s →
    (∀ a ∈ as, a.highBid = none ↔ a.endTime = none) →
    (∃ b', b.replay evs = some b' ∧ Knows b' s') ∧ PlainAuctions s' := by
  induction h with
  | nil => exact fun hk _ hp _ => ⟨⟨_, rfl, hk⟩, hp⟩
  | cons h1 _ ih =>
    intro b hk hst hp hh
    have ha := hst.1 _ List.mem_cons_self
    obtain ⟨b1, e1, k1⟩ := see_settled hk ha (hh _ List.mem_cons_self) h1
    have := ih k1 (stored_tail hst h1) (h1.plain hp ha) (fun a ha => hh a (List.mem_cons_of_mem _ ha))
    simp only [Book.replay, e1, Option.bind_some]
    exact this

/-! ### One call -/

theorem see_call {b : Book} {me : Addr} {ctx : Ctx} {sender : Addr} {funds : List Coin} {m : Exec} {s s' : State}
    {msgs : List Msg} {ev : Event} (hk : Knows b s) (hw : WF p me s) (hd : PlainDenoms s) (hp : PlainAuctions s)
    (h : EvEff p ctx sender funds s m s' msgs ev) :
    (∃ b', b.see ev = some b' ∧ Knows b' s') ∧ PlainAuctions s' := by
  have hget : ∀ {coll tok : Bytes} {a : Auction}, s.auctions.get? (coll, tok) = some a →
      b.auctions (a.collection, a.tokenId) = some (view a) ∧ s.auctions.get? a.key = some a := by
    intro coll tok a ha
    have := (hw.auctions _ _ ha).key
    have h2 : s.auctions.get? a.key = some a := by rw [this]; exact ha
    refine ⟨?_, h2⟩
    rw [hk.auctions]; change (s.auctions.get? a.key).map view = _; rw [h2]; rfl
  cases h with
  | create coll tok r dur rec fee a hadef hno hmin =>
    have hr := hd.2 _ hmin
    subst hadef
    refine ⟨⟨{ b with auctions := put b.auctions (coll, tok) (some ⟨sender, r, rec, none, none⟩) }, ?_,
      { hk with auctions := know_put hk.auctions _ _ rfl }⟩, plain_insert hp hr⟩
    have hb : b.auctions (coll, tok) = none := by rw [hk.auctions, hno]; rfl
    simp [Book.see, createEvent, tokenOf, coin, Event.get_mk, Event.get_opt,
      readCoin_showCoin hr, hb]
  | reserve coll tok r a ha hb hmin =>
    have hr := hd.2 _ hmin
    obtain ⟨hv, h2⟩ := hget ha
    have hg := hw.auctions _ _ ha
    have hh : (view a).highBid = none := hg.high.mpr (hg.first.mp hb)
    refine ⟨⟨{ b with auctions := put b.auctions a.key (some { view a with reserve := r }) }, ?_,
      { hk with auctions := know_put hk.auctions _ _ rfl }⟩, plain_insert hp hr⟩
    simp [Book.see, reserveEvent, tokenOf, coin, Event.get_mk, readCoin_showCoin hr, hv, hh, Auction.key]
  | cancel coll tok a ha hb =>
    obtain ⟨hv, h2⟩ := hget ha
    have hg := hw.auctions _ _ ha
    have hh : (view a).highBid = none := hg.high.mpr (hg.first.mp hb)
    refine ⟨⟨{ b with auctions := put b.auctions a.key none }, ?_,
      { hk with auctions := know_del hk.auctions _ }⟩, plain_erase hp⟩
    simp [Book.see, cancelEvent, tokenOf, Event.get_mk, hv, hh, Auction.key]
  | bid1 coll tok a h e f ha hfunds hde hbidder hb =>
    obtain ⟨hv, h2⟩ := hget ha
    have hg := hw.auctions _ _ ha
    have hh : (view a).highBid = none := hg.high.mpr (hg.first.mp hb)
    have hs : (view a).seller = a.seller := rfl
    have hr : PlainDenom h.coin.denom := hde ▸ hp _ _ ha
    refine ⟨⟨{ b with auctions := put b.auctions a.key (some { view a with endTime := some e, highBid := some h }) }, ?_,
      { hk with auctions := know_put hk.auctions _ _ rfl }⟩, plain_insert hp (hp _ a ha :)⟩
    simp [Book.see, bidEvent, tokenOf, coin, time, Event.get_mk, Event.get_nil, readCoin_showCoin hr,
      readTime_showTime, hv, hh, hs, Auction.key]
  | bid2 coll tok a h old e f ha hfunds hde hbidder ho =>
    obtain ⟨hv, h2⟩ := hget ha
    have hg := hw.auctions _ _ ha
    have hh : (view a).highBid = some old := ho
    have hs : (view a).seller = a.seller := rfl
    have hr : PlainDenom h.coin.denom := hde ▸ hp _ _ ha
    have hr' : PlainDenom old.coin.denom := (hg.coin _ ho).1 ▸ hp _ _ ha
    refine ⟨⟨{ b with auctions := put b.auctions a.key (some { view a with endTime := some e, highBid := some h }) }, ?_,
      { hk with auctions := know_put hk.auctions _ _ rfl }⟩, plain_insert hp (hp _ a ha :)⟩
    simp [Book.see, bidEvent, tokenOf, coin, time, Event.get_mk, readCoin_showCoin hr,
      readCoin_showCoin hr', readTime_showTime, hv, hh, hs, Auction.key]
  | settle coll tok a _ _ _ ha h =>
    obtain ⟨hv, h2⟩ := hget ha
    exact ⟨see_settled hk h2 (hw.auctions _ _ ha).high h, h.plain hp h2⟩

/-! ### One hook -/

theorem replay_setMin : ∀ (cs : List Coin) {b : Book} {m m' : AMap Denom Nat}, (∀ d, b.mins d = m.get? d) →
    setMinReserve cs m = .ok m' →
    ∃ b', b.replay (cs.map setMinEvent) = some b' ∧ (∀ d, b'.mins d = m'.get? d) ∧ b'.config = b.config ∧
      b'.auctions = b.auctions
  | [], b, m, m', hm, h => by cases h; exact ⟨b, rfl, hm, rfl, rfl⟩
  | c :: cs, b, m, m', hm, h => by
    unfold setMinReserve at h
    simp only [bind_ok, ensure_ok] at h
    obtain ⟨_, hn, h⟩ := h
    have := replay_setMin cs (b := { b with mins := put b.mins c.denom (some c.amount) })
      (know_put' hm c.denom c.amount) h
    have e : b.see (setMinEvent c) = some { b with mins := put b.mins c.denom (some c.amount) } := by
      have : b.mins c.denom = none := by rw [hm]; exact hn
      simp [Book.see, setMinEvent, num, Event.get_mk, readNat_showNat, this]
    simp only [List.map_cons, Book.replay, e, Option.bind_some]
    exact this

theorem replay_unsetMin : ∀ (ds : List Denom) {b : Book} {m m' : AMap Denom Nat}, (∀ d, b.mins d = m.get? d) →
    unsetMinReserve ds m = .ok m' →
    ∃ b', b.replay (ds.map unsetMinEvent) = some b' ∧ (∀ d, b'.mins d = m'.get? d) ∧ b'.config = b.config ∧
      b'.auctions = b.auctions
  | [], b, m, m', hm, h => by cases h; exact ⟨b, rfl, hm, rfl, rfl⟩
  | c :: cs, b, m, m', hm, h => by
    unfold unsetMinReserve at h
    simp only [bind_ok, ensure_ok] at h
    obtain ⟨_, hn, h⟩ := h
    have := replay_unsetMin cs (b := { b with mins := put b.mins c none }) (know_del' hm c) h
    have e : b.see (unsetMinEvent c) = some { b with mins := put b.mins c none } := by
      have : (b.mins c).isSome = true := by rw [hm]; exact hn
      obtain ⟨n, hn⟩ := Option.isSome_iff_exists.mp this
      simp [Book.see, unsetMinEvent, Event.get_mk, hn]
    simp only [List.map_cons, Book.replay, e, Option.bind_some]
    exact this

/-- An attribute that was added if the value was given. -/
theorem keep_opt {α : Type} {e : Event} {k : String} {v : Option α} {f : α → Bytes} {read : Bytes → Option α} {old : α}
    (hget : e.get k = v.map f) (hr : ∀ x, v = some x → read (f x) = some x) :
    keep e k read old = some (v.getD old) := by
  unfold keep
  rw [hget]
  cases v with
  | none => rfl
  | some x => exact hr x rfl

theorem read_params (u : Update) (c : Config) (h : PlainDenom (u.createFee.getD c.createFee).denom) :
    readUpdate { c with maxDuration := 0 } (paramsEvent u) = some { updated u c with maxDuration := 0 } := by
  unfold readUpdate
  rw [keep_opt (v := u.fairBurn) (f := id) (by simp [paramsEvent, Event.get_append, Event.get_opt]) (fun _ _ => rfl),
    keep_opt (v := u.tradingFee) (by simp [paramsEvent, Event.get_append, Event.get_opt]) (fun _ _ => readDec_showDec _),
    keep_opt (v := u.minBidIncrement) (by simp [paramsEvent, Event.get_append, Event.get_opt]) (fun _ _ => readDec_showDec _),
    keep_opt (v := u.minDuration) (by simp [paramsEvent, Event.get_append, Event.get_opt]) (fun _ _ => readNat_showNat _),
    keep_opt (v := u.extendDuration) (by simp [paramsEvent, Event.get_append, Event.get_opt]) (fun _ _ => readNat_showNat _),
    keep_opt (v := u.createFee) (f := showCoin) (by simp [paramsEvent, Event.get_append, Event.get_opt])
      (fun x hx => by rw [hx] at h; exact readCoin_showCoin h),
    keep_opt (v := u.maxSettle) (by simp [paramsEvent, Event.get_append, Event.get_opt]) (fun _ _ => readNat_showNat _),
    keep_opt (v := u.haltThreshold) (by simp [paramsEvent, Event.get_append, Event.get_opt]) (fun _ _ => readNat_showNat _),
    keep_opt (v := u.haltBuffer) (by simp [paramsEvent, Event.get_append, Event.get_opt]) (fun _ _ => readNat_showNat _),
    keep_opt (v := u.haltPostpone) (by simp [paramsEvent, Event.get_append, Event.get_opt]) (fun _ _ => readNat_showNat _)]
  rfl

theorem see_hook {b : Book} {me : Addr} {ctx : Ctx} {m : Sudo} {s s' : State} {msgs : List Msg} {evs : List Event}
    (hk : Knows b s) (hw : WF p me s) (hd : PlainDenoms s') (hp : PlainAuctions s) (h : SEvEff p ctx s m s' msgs evs) :
    (∃ b', b.replay evs = some b' ∧ Knows b' s') ∧ PlainAuctions s' := by
  cases h with
  | begin s' evs hs hev =>
    obtain ⟨h1, h2, h3⟩ := hs
    refine ⟨⟨b, ?_, ⟨by rw [h1]; exact hk.config, by rw [h2]; exact hk.mins, by rw [h3]; exact hk.auctions⟩⟩, ?_⟩
    · rcases hev with rfl | ⟨w, rfl⟩
      · rfl
      · simp [haltEvents, Book.replay, Book.see, Event.get_mk, Event.get_nil]
    · unfold PlainAuctions; rw [h3]; exact hp
  | stop s1 ws msgs evs hb =>
    have hst := due_stored (ctx := ctx) hw
    obtain ⟨⟨b', e, k⟩, hp'⟩ := see_batch hb hk hst hp (fun a ha => (hw.auctions _ _ (hst.1 a ha)).high)
    refine ⟨⟨b', ?_, ⟨k.config, k.mins, k.auctions⟩⟩, hp'⟩
    have : b.see endBlockEvent = some b := by simp [Book.see, endBlockEvent]
    simp only [Book.replay, this, Option.bind_some]
    exact e
  | params u =>
    refine ⟨⟨{ b with config := some { updated u s.config with maxDuration := 0 } }, ?_, { hk with config := rfl }⟩, hp⟩
    rw [replay_one]
    have hty : (paramsEvent u).ty = "sudo-update-params" := rfl
    simp only [Book.see, hty, hk.config]
    simp [read_params u s.config hd.1]
  | setMin cs m h =>
    obtain ⟨b', e, h1, h2, h3⟩ := replay_setMin cs hk.mins h
    exact ⟨⟨b', e, ⟨by rw [h2]; exact hk.config, h1, by rw [h3]; exact hk.auctions⟩⟩, hp⟩
  | unsetMin ds m h =>
    obtain ⟨b', e, h1, h2, h3⟩ := replay_unsetMin ds hk.mins h
    exact ⟨⟨b', e, ⟨by rw [h2]; exact hk.config, h1, by rw [h3]; exact hk.auctions⟩⟩, hp⟩

/-! ### C109 -/

theorem Spec.Logged.reach {name version : Bytes} {self : Addr} {G : State → Prop} {s : State} {log : List Event}
    (h : Logged p name version self G s log) : Reach p self s := by
  induction h with
  | init h =>
    rename_i c mins s evs
    unfold instantiateE at h
    rw [bind_ok] at h
    obtain ⟨s0, h0, h⟩ := h
    cases h
    exact ⟨c, mins, _, h0, .refl _⟩
  | call _ _ h1 h2 h ih => exact ih.step (.call h1 h2 (executeE_ok h))
  | sudo _ _ h1 h ih => exact ih.step (.sudo h1 (sudoE_ok h))

/-- **C109** (1) The entry points with events are the entry points: every history has a log, and every log belongs
to a history. -/
theorem C109_log {self : Addr} (name version : Bytes) (s : State) :
    Reach p self s ↔ ∃ log, Logged p name version self (fun _ => True) s log := by
  constructor
  · rintro ⟨c, mins, s0, hi, ha⟩
    induction ha with
    | refl =>
      refine ⟨_, .init (c := c) (mins := mins) (evs := initEvent name version c :: mins.map setMinEvent) ?_⟩
      unfold instantiateE
      rw [hi]; rfl
    | step _ hs ih =>
      obtain ⟨log, hl⟩ := ih
      cases hs with
      | call h1 h2 h => obtain ⟨evs, he⟩ := executeE_of h; exact ⟨_, .call hl trivial h1 h2 he⟩
      | sudo h1 h => obtain ⟨evs, he⟩ := sudoE_of h; exact ⟨_, .sudo hl trivial h1 he⟩
  · rintro ⟨log, h⟩
    exact h.reach

theorem logged_know {name version : Bytes} {self : Addr} {s : State} {log : List Event}
    (h : Logged p name version self PlainDenoms s log) (hs : PlainDenoms s) :
    (∃ b, Book.empty.replay log = some b ∧ Knows b s) ∧ PlainAuctions s := by
  induction h with
  | init h =>
    rename_i c mins s evs
    unfold instantiateE instantiate at h
    simp only [bind_ok] at h
    obtain ⟨s0, ⟨_, _, _, _, m, hm, h0⟩, h⟩ := h
    cases h0
    cases h
    refine ⟨?_, by intro k a h; simp at h⟩
    have e : Book.empty.see (initEvent name version c) =
        some { Book.empty with config := some { c with maxDuration := 0 } } := by
      have hc : PlainDenom c.createFee.denom := hs.1
      simp [Book.see, initEvent, readConfig, dec, num, coin, Event.get_mk, readDec_showDec, readNat_showNat,
        readCoin_showCoin hc]
    obtain ⟨b', e', h1, h2, h3⟩ := replay_setMin mins
      (b := { Book.empty with config := some { c with maxDuration := 0 } }) (m := .empty) (fun _ => rfl) hm
    refine ⟨b', ?_, ⟨h2, h1, ?_⟩⟩
    · simp only [Book.replay, e, Option.bind_some]; exact e'
    · intro k; rw [h3]; rfl
  | call hr hg h1 h2 h ih =>
    obtain ⟨⟨b, hb, hk⟩, hp⟩ := ih hg
    obtain ⟨ev, rfl, he⟩ := executeE_eff h
    rw [replay_append, hb, Option.bind_some, replay_one]
    exact see_call hk hr.reach.wf hg hp he
  | sudo hr hg h1 h ih =>
    obtain ⟨⟨b, hb, hk⟩, hp⟩ := ih hg
    rw [replay_append, hb, Option.bind_some]
    exact see_hook hk hr.reach.wf hs hp (sudoE_eff h)

/-- **C109** (2) Someone who reads nothing but the events, from the first on, knows the configuration except for the
maximum duration, the minimum reserve prices, and seller, reserve price, recipient, end time and high bid of every open
auction, provided that denoms do not start with a digit. -/
theorem C109_replay {name version : Bytes} {self : Addr} {s : State} {log : List Event}
    (h : Logged p name version self PlainDenoms s log) (hs : PlainDenoms s) :
    ∃ b, Book.empty.replay log = some b ∧ Knows b s :=
  (logged_know h hs).1

/-! ### C110 -/

theorem announced_cons (e : Event) (es : List Event) : announced (e :: es) = announced [e] ++ announced es := by
  unfold announced
  rw [← List.filterMap_append, List.singleton_append]

theorem announcedAmount_cons (d : Denom) (e : Event) (es : List Event) :
    announcedAmount d (e :: es) = announcedAmount d [e] + announcedAmount d es := by
  simp [announcedAmount]

theorem transfers_append (a b : List Msg) : transfers (a ++ b) = transfers a ++ transfers b := List.filter_append ..

theorem pays_noNft (hlib : LibOk p.lib) {c : Coin} {a f : Addr} {n : Nat} {r : Option Royalty} {ms : List Msg}
    (h : p.lib.payout c a f n r = .ok ms) : transfers ms = [] := by
  unfold transfers
  rw [List.filter_eq_nil_iff]
  intro m hm
  have := hlib.pays _ _ _ _ _ _ h m hm
  cases m <;> simp [IsPayment] at this ⊢

theorem settled_msgs (hlib : LibOk p.lib) {ctx : Ctx} {a : Auction} {c : Config} {s s' : State} {msgs : List Msg}
    {ev : Event} (h : SettledEv p ctx a c s s' msgs ev) :
    transfers msgs = announced [ev] ∧ ∀ d, paidOut d msgs = announcedAmount d [ev] := by
  cases h with
  | postponed e' he =>
    refine ⟨?_, fun d => ?_⟩
    · simp [announced, postponeEvent, transfers]
    · simp [announcedAmount, postponeEvent, paidOut]
  | sold hb roy pay hh hpay =>
    refine ⟨?_, fun d => ?_⟩
    · rw [transfers_append, pays_noNft hlib hpay]
      simp [announced, settleEvent, tokenOf, Event.get_mk, transfers]
    · rw [paidOut_append, hlib.exact _ _ _ _ _ _ hpay d]
      simp [announcedAmount, settleEvent, num, Event.get_mk, readNat_showNat, paidOut, amountOf, Coin.inDenom]

theorem batch_msgs (hlib : LibOk p.lib) {ctx : Ctx} {as : List Auction} {c : Config} {s s' : State} {msgs : List Msg}
    {evs : List Event} (h : BatchEv p ctx c as s s' msgs evs) :
    transfers msgs = announced evs ∧ ∀ d, paidOut d msgs = announcedAmount d evs := by
  induction h with
  | nil => exact ⟨rfl, fun _ => rfl⟩
  | cons h1 _ ih =>
    obtain ⟨a1, a2⟩ := settled_msgs hlib h1
    refine ⟨?_, fun d => ?_⟩
    · rw [transfers_append, a1, ih.1, ← announced_cons]
    · rw [paidOut_append, a2, ih.2, ← announcedAmount_cons]

/-- **C110** (1) A successful call emits exactly one event. Its type goes with the call, and it names the token. -/
theorem C110_once {self : Addr} {ctx : Ctx} {sender : Addr} {funds : List Coin} {m : Exec} {s s' : State}
    {msgs : List Msg} {evs : List Event} (hr : Reach p self s)
    (h : executeE p ctx sender funds m s = .ok (s', msgs, evs)) :
    ∃ e, evs = [e] ∧ e.ty ∈ typesOf m ∧ tokenOf e = some (keyOf m) := by
  obtain ⟨ev, rfl, he⟩ := executeE_eff h
  refine ⟨ev, rfl, ?_⟩
  have hkey : ∀ {coll tok : Bytes} {a : Auction}, s.auctions.get? (coll, tok) = some a →
      a.collection = coll ∧ a.tokenId = tok := by
    intro coll tok a ha
    have := (hr.wf.auctions _ _ ha).key
    unfold Auction.key at this
    exact Prod.mk.inj this
  cases he with
  | create coll tok r dur rec fee a hadef =>
    subst hadef; simp [createEvent, typesOf, tokenOf, keyOf, Event.get_mk]
  | reserve coll tok r a ha => simp [reserveEvent, typesOf, tokenOf, keyOf, Event.get_mk, hkey ha]
  | cancel coll tok a ha => simp [cancelEvent, typesOf, tokenOf, keyOf, Event.get_mk, hkey ha]
  | bid1 coll tok a h e f ha => simp [bidEvent, typesOf, tokenOf, keyOf, Event.get_mk, hkey ha]
  | bid2 coll tok a h old e f ha => simp [bidEvent, typesOf, tokenOf, keyOf, Event.get_mk, hkey ha]
  | settle coll tok a _ _ _ ha h =>
    cases h with
    | postponed => simp [postponeEvent, typesOf, tokenOf, keyOf, Event.get_mk, hkey ha]
    | sold => simp [settleEvent, typesOf, tokenOf, keyOf, Event.get_mk, hkey ha]

/-- **C110** (2) The event of a bid names the bidder and the payment, and a previous bid exactly if one is refunded:
the messages are the refund it announces. -/
theorem C110_bid {self : Addr} {name version : Bytes} {ctx : Ctx} {sender : Addr} {funds : List Coin} {coll tok : Bytes}
    {s s' : State} {msgs : List Msg} {evs log : List Event} (hr : Logged p name version self PlainDenoms s log)
    (hs : PlainDenoms s) (h : executeE p ctx sender funds (.bid coll tok) s = .ok (s', msgs, evs)) :
    ∃ e c, evs = [e] ∧ e.get "bidder" = some sender ∧ coin e "bid_amount" = some c ∧ funds = [c] ∧ msgs = refund e ∧
      ∃ a t, s'.auctions.get? (coll, tok) = some a ∧ time e "auction_end_time" = some t ∧ a.endTime = some t := by
  have hw := hr.reach.wf
  have hp := (logged_know hr hs).2
  obtain ⟨ev, rfl, he⟩ := executeE_eff h
  cases he with
  | bid1 _ _ a nb e f ha hfunds hde hbidder hb =>
    have hg := hw.auctions _ _ ha
    have hr : PlainDenom nb.coin.denom := hde ▸ hp _ _ ha
    refine ⟨_, nb.coin, rfl, ?_, ?_, hfunds, ?_,
      { a with firstBid := some f, endTime := some e, highBid := some nb }, e, ?_, ?_, rfl⟩
    · simp [bidEvent, Event.get_mk, hbidder]
    · simp [bidEvent, Event.get_mk, coin, readCoin_showCoin hr]
    · simp [bidEvent, Event.get_mk, Event.get_nil, refund]
    · simp only [hg.key, AMap.get?_insert, if_true]
    · simp [bidEvent, Event.get_mk, time, readTime_showTime]
  | bid2 _ _ a nb old e f ha hfunds hde hbidder ho =>
    have hg := hw.auctions _ _ ha
    have hr : PlainDenom nb.coin.denom := hde ▸ hp _ _ ha
    have hr' : PlainDenom old.coin.denom := (hg.coin _ ho).1 ▸ hp _ _ ha
    refine ⟨_, nb.coin, rfl, ?_, ?_, hfunds, ?_,
      { a with firstBid := some f, endTime := some e, highBid := some nb }, e, ?_, ?_, rfl⟩
    · simp [bidEvent, Event.get_mk, hbidder]
    · simp [bidEvent, Event.get_mk, coin, readCoin_showCoin hr]
    · simp [bidEvent, Event.get_mk, refund, coin, readCoin_showCoin hr']
    · simp only [hg.key, AMap.get?_insert, if_true]
    · simp [bidEvent, Event.get_mk, time, readTime_showTime]

/-- **C110** (3) The `settle-auction` events of a settlement or of the end-block hook announce exactly the transfers
of tokens, in order, and exactly the money paid out. -/
theorem C110_settle (hlib : LibOk p.lib) {ctx : Ctx} {s s' : State} {msgs : List Msg} {evs : List Event}
    (h : sudoE p ctx .endBlock s = .ok (s', msgs, evs) ∨
      ∃ sender funds coll tok, executeE p ctx sender funds (.settle coll tok) s = .ok (s', msgs, evs)) :
    transfers msgs = announced evs ∧ ∀ d, paidOut d msgs = announcedAmount d evs := by
  rcases h with h | ⟨sender, funds, coll, tok, h⟩
  · cases sudoE_eff h with
    | stop s1 ws _ evs hb =>
      obtain ⟨h1, h2⟩ := batch_msgs hlib hb
      refine ⟨?_, fun d => ?_⟩
      · rw [h1, announced_cons]; simp [announced, endBlockEvent]
      · rw [h2, announcedAmount_cons]; simp [announcedAmount, endBlockEvent]
  · obtain ⟨ev, rfl, he⟩ := executeE_eff h
    cases he with
    | settle _ _ a _ _ _ ha h => exact settled_msgs hlib h

end

namespace Sample

/-- Check of `PlainDenoms` by running through the table. -/
def plainOk (s : State) : Bool :=
  decide (PlainDenom s.config.createFee.denom) && s.minReserve.l.all (fun kd => decide (PlainDenom kd.1))

theorem plainOk_spec {s : State} (h : plainOk s = true) : PlainDenoms s := by
  unfold plainOk at h
  rw [Bool.and_eq_true, decide_eq_true_eq, List.all_eq_true] at h
  refine ⟨h.1, fun d hd => ?_⟩
  obtain ⟨n, hn⟩ := Option.ne_none_iff_exists'.mp hd
  exact of_decide_eq_true (h.2 _ (AMap.mem_iff.mpr hn))

/-- A call or a hook. -/
inductive Act where
  | call (sender : Addr) (funds : List Coin) (m : Exec)
  | hook (m : Sudo)

def act (c : Ctx) (a : Act) (s : State) : OutE :=
  match a with
  | .call sender funds m => if sender = self then .error .std else executeE P c sender funds m s
  | .hook m => sudoE P c m s

/-- Calls and hooks one after the other, collecting the events; fails if one fails or a denom is not plain. -/
def play : List (Ctx × Act) → State × List Event → Option (State × List Event)
  | [], x => if plainOk x.1 then some x else none
  | (c, a) :: cs, (s, log) =>
    if c.self = self ∧ plainOk s = true then
      match act c a s with
      | .ok (s', _, evs) => play cs (s', log ++ evs)
      | .error _ => none
    else none

theorem play_logged : ∀ {cs : List (Ctx × Act)} {x y : State × List Event},
    Logged P [97] [49] self PlainDenoms x.1 x.2 → play cs x = some y →
    Logged P [97] [49] self PlainDenoms y.1 y.2 ∧ PlainDenoms y.1
  | [], x, y, h, hp => by
    unfold play at hp
    split at hp
    case isTrue hc => cases hp; exact ⟨h, plainOk_spec hc⟩
    case isFalse => cases hp
  | (c, a) :: cs, (s, log), y, h, hp => by
    unfold play at hp
    split at hp
    case isFalse => cases hp
    case isTrue hc =>
      split at hp
      case h_2 => cases hp
      case h_1 s' ms evs he =>
        refine play_logged ?_ hp
        cases a with
        | call sender funds m =>
          simp only [act] at he
          split at he
          · cases he
          case isFalse hne => exact .call h (plainOk_spec hc.2) hc.1 hne he
        | hook m => exact .sudo h (plainOk_spec hc.2) hc.1 he

def log0 : List Event := [initEvent [97] [49] cfg, setMinEvent ⟨ust, 10⟩]

theorem logged0 : Logged P [97] [49] self PlainDenoms s0 log0 := .init (c := cfg) (mins := [⟨ust, 10⟩]) rfl

def played (cs : List (Ctx × Act)) : State × List Event := (play cs (s0, log0)).getD (s0, log0)

theorem played_logged {cs : List (Ctx × Act)} (h : (play cs (s0, log0)).isSome = true) :
    Logged P [97] [49] self PlainDenoms (played cs).1 (played cs).2 ∧ PlainDenoms (played cs).1 := by
  obtain ⟨y, hy⟩ := Option.isSome_iff_exists.mp h
  have := play_logged logged0 hy
  unfold played
  rw [hy]
  exact this

/-- A new token for sale: a fee update, two auctions, a change of the reserve price, two bids, a halt, and a block in
which the first auction is postponed and settled in a later one. -/
def script : List (Ctx × Act) :=
  [(ctx 1000000, .hook .beginBlock),
   (ctx 1000000, .hook (.updateParams { tradingFee := some (3 * 10^16), createFee := some ⟨ust, 6⟩ })),
   (ctx 1000000 (some alice), .call alice [⟨ust, 6⟩] (.create coll tok ⟨ust, 100⟩ 60 (some artist))),
   (ctx 1000000 (some alice), .call alice [⟨ust, 6⟩] (.create coll [50] ⟨ust, 100⟩ 60 none)),
   (ctx 1000000, .call alice [] (.updateReserve coll tok ⟨ust, 90⟩)),
   (ctx 1000000, .call bob [⟨ust, 90⟩] (.bid coll tok)),
   (ctx 1040500, .call carol [⟨ust, 120⟩] (.bid coll tok)),
   (ctx 1200000, .hook .beginBlock),
   (ctx 1200000, .hook .endBlock),
   (ctx 1290000, .hook .beginBlock),
   (ctx 1290000, .hook .endBlock)]

/-- The hypotheses of C109 hold for this history; its log, and what the observer knows in the end. -/
theorem script_ok : (play script (s0, log0)).isSome = true := by decide +kernel
example : ∃ b, Book.empty.replay (played script).2 = some b ∧ Knows b (played script).1 :=
  C109_replay (played_logged script_ok).1 (played_logged script_ok).2
example : (played script).2.map (fun e => e.ty) = ["wasm", "set-min-reserve-price", "sudo-update-params",
    "create-auction", "create-auction", "update-reserve-price", "place-bid", "place-bid", "wasm", "halt-detected",
    "sudo-end-block", "postpone-auction", "sudo-end-block", "settle-auction"] := by decide +kernel
example : ((Book.empty.replay (played script).2).map fun b => (b.auctions (coll, tok),
    (b.auctions (coll, [50])).map (fun v => v.reserve.amount), b.config.map (fun c => c.tradingFee))) =
    some (none, some 100, some (3 * 10^16)) := by decide +kernel

/-- An auction of the given duration, nobody has bid yet. -/
def twin (dur : Nat) : List (Ctx × Act) :=
  [(ctx 1000000 (some alice), .call alice [⟨ust, 5⟩] (.create coll tok ⟨ust, 100⟩ dur none))]

/-- **C109** (3) The duration of an auction is announced by no event: with the same log it may be 60 or 600 seconds. -/
theorem C109_duration_hidden : ∃ s s' log a a', Logged P [97] [49] self PlainDenoms s log ∧
    Logged P [97] [49] self PlainDenoms s' log ∧ s.auctions.get? (coll, tok) = some a ∧
    s'.auctions.get? (coll, tok) = some a' ∧ a.duration = 60 ∧ a'.duration = 600 := by
  have e : (played (twin 60)).2 = (played (twin 600)).2 := by decide +kernel
  refine ⟨(played (twin 60)).1, (played (twin 600)).1, (played (twin 60)).2,
    ⟨coll, tok, alice, ⟨ust, 100⟩, 60, none, none, none, none⟩, ⟨coll, tok, alice, ⟨ust, 100⟩, 600, none, none, none, none⟩,
    (played_logged (by decide +kernel)).1, ?_, by decide +kernel, by decide +kernel, rfl, rfl⟩
  rw [e]
  exact (played_logged (by decide +kernel)).1

/-- The hypotheses of C110 hold: a bid that refunds a previous one, and the block that settles an auction. -/
def beforeBid : List (Ctx × Act) := script.take 6
def beforeEnd : List (Ctx × Act) := script.take 10

def outOf (x : OutE) : State × List Msg × List Event :=
  match x with
  | .ok r => r
  | .error _ => (s0, [], [])

theorem outOf_ok {x : OutE} (h : x.isOk = true) : x = .ok (outOf x) := by
  cases x with
  | ok r => rfl
  | error e => cases h

def bidOut : OutE := executeE P (ctx 1040500) carol [⟨ust, 120⟩] (.bid coll tok) (played beforeBid).1
def endOut : OutE := sudoE P (ctx 1290000) .endBlock (played beforeEnd).1

example : ∃ e c, (outOf bidOut).2.2 = [e] ∧ e.get "bidder" = some carol ∧ coin e "bid_amount" = some c ∧
    [⟨ust, 120⟩] = [c] ∧ (outOf bidOut).2.1 = refund e ∧
    ∃ a t, (outOf bidOut).1.auctions.get? (coll, tok) = some a ∧ time e "auction_end_time" = some t ∧ a.endTime = some t :=
  C110_bid (played_logged (cs := beforeBid) (by decide +kernel)).1 (played_logged (by decide +kernel)).2
    (outOf_ok (x := bidOut) (by decide +kernel))
example : (outOf bidOut).2.1 = [.send bob [⟨ust, 90⟩]] := by decide +kernel
example : transfers (outOf endOut).2.1 = announced (outOf endOut).2.2 ∧
    ∀ d, paidOut d (outOf endOut).2.1 = announcedAmount d (outOf endOut).2.2 :=
  C110_settle libOk (.inl (outOf_ok (x := endOut) (by decide +kernel)))
example : announced (outOf endOut).2.2 = [.nft coll tok carol] ∧ announcedAmount ust (outOf endOut).2.2 = 120 := by
  decide +kernel
example : ∃ e, (outOf bidOut).2.2 = [e] ∧ e.ty ∈ typesOf (.bid coll tok) ∧ tokenOf e = some (keyOf (.bid coll tok)) :=
  C110_once (played_logged (cs := beforeBid) (by decide +kernel)).1.reach (outOf_ok (x := bidOut) (by decide +kernel))

end Sample
end Verif.Auction

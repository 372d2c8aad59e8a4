/-
Properties C107–C108: what the events of the v2 marketplace tell an observer.
-/
import Verif.V2.EventLemmas
import Verif.V2.EventSpec
import Verif.V2.Sample

namespace Verif.V2
open Verif Spec

section
variable {p : Params}

@[simp] theorem put_self {K V : Type} [DecidableEq K] (f : K → V) (k : K) (v : V) : put f k v k = v := by simp [put]

theorem know_put {K V : Type} [DecidableEq K] {f : K → Option V} {m : AMap K V} (h : ∀ k, f k = m.get? k)
    (k : K) (v : V) : ∀ x, put f k (some v) x = (m.insert k v).get? x := by
  intro x
  simp only [put, AMap.get?_insert, h]

theorem know_del {K V : Type} [DecidableEq K] {f : K → Option V} {m : AMap K V} (h : ∀ k, f k = m.get? k)
    (k : K) : ∀ x, put f k none x = (m.erase k).get? x := by
  intro x
  simp only [put, AMap.get?_erase, h]

theorem replay_append (b : Book) : ∀ (l r : List Event), b.replay (l ++ r) = (b.replay l).bind fun b' => b'.replay r
  | [], _ => rfl
  | e :: l, r => by
    simp only [List.cons_append, Book.replay]
    cases b.see e with
    | none => rfl
    | some b' => exact replay_append b' l r

theorem replay_one (b : Book) (e : Event) : b.replay [e] = b.see e := by
  simp only [Book.replay]
  cases b.see e <;> rfl

theorem price_plain {s : State} {coll : Addr} {c : Coin} (hp : PlainDenoms s) (h : PriceOk s coll c) :
    PlainDenom c.denom := by
  rw [← h.2]
  cases hg : s.collectionDenoms.get? coll with
  | none => exact hp.1
  | some d => exact hp.2 _ _ hg

/-- The observer keeps up with one call. -/
theorem see_step {b : Book} {ctx : Ctx} {m : Exec} {s s' : State} {msgs : List Msg} {evs : List Event}
    (hk : Knows b s) (hw : WF p s) (hp : PlainDenoms s) (h : EvEff p ctx m s s' msgs evs) :
    ∃ b', b.replay evs = some b' ∧ Knows b' s' := by
  cases h with
  | config c =>
    rw [replay_one]
    refine ⟨{ b with config := some c }, ?_, { hk with config := rfl }⟩
    simp [Book.see, configEvent, readConfig, num, Event.get_mk, readNat_showNat]
  | denom coll den =>
    rw [replay_one]
    refine ⟨{ b with denoms := put b.denoms coll (some den) }, ?_, { hk with denoms := know_put hk.denoms _ _ }⟩
    simp [Book.see, collectionDenomEvent, Event.get_mk]
  | setFee fee =>
    rw [replay_one]
    refine ⟨{ b with fees := put b.fees fee.denom (some fee.amount) }, ?_, { hk with fees := know_put hk.fees _ _ }⟩
    simp [Book.see, listingFeeEvent, Event.get_mk, num, optAttr, readNat_showNat]
  | rmFee den =>
    rw [replay_one]
    refine ⟨{ b with fees := put b.fees den none }, ?_, { hk with fees := know_del hk.fees _ }⟩
    simp [Book.see, listingFeeEvent, Event.get_mk, optAttr]
  | restAsk a ms hm hpr hnew hms =>
    rw [replay_one]
    refine ⟨{ b with asks := put b.asks a.id (some a) }, ?_, { hk with asks := know_put hk.asks _ _ }⟩
    simp [Book.see, readAsk, readDetails, Event.get_mk, Event.get_append, Event.get_opt,
      readCoin_showCoin (price_plain hp hpr), hk.asks, hnew]
  | updAsk id a d ha hpr =>
    rw [replay_one]
    have hid := (hw.ask ha).1
    refine ⟨{ b with asks := put b.asks a.id (some { a with details := d }) }, ?_,
      { hk with asks := know_put hk.asks _ _ }⟩
    simp [Book.see, knownAsk, readDetails, Event.get_mk, Event.get_append, Event.get_opt,
      readCoin_showCoin (price_plain hp hpr), hk.asks, ha, hid]
  | rmAsk id a hm ha =>
    rw [replay_one]
    have hid := (hw.ask ha).1
    refine ⟨{ b with asks := put b.asks a.id none }, ?_, { hk with asks := know_del hk.asks _ }⟩
    simp [Book.see, knownAsk, Event.get_mk, hk.asks, ha, hid]
  | restBid n a ms hpr hnew hms =>
    rw [replay_one]
    refine ⟨{ b with bids := put b.bids a.id (some a) }, ?_, { hk with bids := know_put hk.bids _ _ }⟩
    simp [Book.see, readBid, readDetails, Event.get_mk, Event.get_append, Event.get_opt,
      readCoin_showCoin (price_plain hp hpr), hk.bids, hnew]
  | updBid id a d ms ha hpr hms =>
    rw [replay_one]
    have hid := (hw.bid ha).1
    refine ⟨{ b with bids := put b.bids a.id (some { a with details := d }) }, ?_,
      { hk with bids := know_put hk.bids _ _ }⟩
    simp [Book.see, knownBid, readDetails, Event.get_mk, Event.get_append, Event.get_opt,
      readCoin_showCoin (price_plain hp hpr), hk.bids, ha, hid]
  | rmBid id a ms ha hms =>
    rw [replay_one]
    have hid := (hw.bid ha).1
    refine ⟨{ b with bids := put b.bids a.id none }, ?_, { hk with bids := know_del hk.bids _ }⟩
    simp [Book.see, knownBid, Event.get_mk, hk.bids, ha, hid]
  | restCBid n a ms hpr hnew hms =>
    rw [replay_one]
    refine ⟨{ b with cbids := put b.cbids a.id (some a) }, ?_, { hk with cbids := know_put hk.cbids _ _ }⟩
    simp [Book.see, readCBid, readDetails, Event.get_mk, Event.get_append, Event.get_opt,
      readCoin_showCoin (price_plain hp hpr), hk.cbids, hnew]
  | updCBid id a d ms ha hpr hms =>
    rw [replay_one]
    have hid := (hw.cbid ha).1
    refine ⟨{ b with cbids := put b.cbids a.id (some { a with details := d }) }, ?_,
      { hk with cbids := know_put hk.cbids _ _ }⟩
    simp [Book.see, knownCBid, readDetails, Event.get_mk, Event.get_append, Event.get_opt,
      readCoin_showCoin (price_plain hp hpr), hk.cbids, ha, hid]
  | rmCBid id a ms ha hms =>
    rw [replay_one]
    have hid := (hw.cbid ha).1
    refine ⟨{ b with cbids := put b.cbids a.id none }, ?_, { hk with cbids := know_del hk.cbids _ }⟩
    simp [Book.see, knownCBid, Event.get_mk, hk.cbids, ha, hid]
  | sale n ask mb abb pre post x hb h1 h2 =>
    rw [replay_one]
    have hl : ∀ l : List Payment, ∀ k, k ∉ ["protocol", "maker", "taker", "royalty", "seller"] →
        (Event.mk "finalize-sale" (l.map (fun x => (labelStr x.label, showNat x.funds.amount)))).get k = none := by
      intro l k hk
      induction l with
      | nil => rfl
      | cons y l ih =>
        rw [List.map_cons, Event.get_mk, ih, if_neg]
        intro e
        apply hk
        rw [← e]
        cases y.label <;> simp [labelStr]
    cases mb with
    | bid o =>
      refine ⟨{ b with asks := put b.asks ask.id none, bids := put b.bids o.id none }, ?_,
        { hk with asks := know_del hk.asks _, bids := know_del hk.bids _ }⟩
      simp [Book.see, saleEvent, matchAttr, Event.get_mk, hl x.payments "collection_bid" (by decide)]
    | cbid o =>
      refine ⟨{ b with asks := put b.asks ask.id none, cbids := put b.cbids o.id none }, ?_,
        { hk with asks := know_del hk.asks _, cbids := know_del hk.cbids _ }⟩
      simp [Book.see, saleEvent, matchAttr, Event.get_mk, hl x.payments "bid" (by decide)]

theorem Spec.Logged.reach {name version : Bytes} {self : Addr} {G : State → Prop} {s : State} {log : List Event}
    (h : Logged p name version self G s log) : Reach p self G s := by
  induction h with
  | init h =>
    rename_i c s evs
    refine .init (c := c) ?_
    unfold instantiateE at h
    unfold instantiate
    simp only [bind_ok] at h ⊢
    obtain ⟨c, h1, u, h2, h⟩ := h
    cases h
    exact ⟨c, h1, u, h2, rfl⟩
  | call _ hg h1 h2 h ih => exact .call ih hg h1 h2 (executeE_ok _ h)

/-- **C107** (1) The entry points with events are the entry points: every history has a log, and every log belongs
to a history. -/
theorem C107_log {self : Addr} {G : State → Prop} (name version : Bytes) (s : State) :
    Reach p self G s ↔ ∃ log, Logged p name version self G s log := by
  constructor
  · intro h
    induction h with
    | init h =>
      rename_i c s
      unfold instantiate at h
      simp only [bind_ok] at h
      obtain ⟨c', h1, u, h2, h⟩ := h
      cases h
      refine ⟨_, .init (c := c) (evs := [⟨"instantiate", [("contract_name", name), ("contract_version", version)]⟩,
        configEvent "set-config" c']) ?_⟩
      unfold instantiateE
      simp only [bind_ok]
      exact ⟨c', h1, u, h2, rfl⟩
    | call _ hg h1 h2 h ih =>
      obtain ⟨log, hl⟩ := ih
      obtain ⟨evs, he⟩ := executeE_of_ok _ h
      exact ⟨_, .call hl hg h1 h2 he⟩
  · rintro ⟨log, h⟩
    exact h.reach

/-- **C107** (2) Someone who reads nothing but the events, from the first on, knows the configuration, the denoms,
the listing fees and all open orders with all their terms, provided that denoms do not start with a digit. -/
theorem C107_replay {name version : Bytes} {self : Addr} {s : State} {log : List Event}
    (h : Logged p name version self PlainDenoms s log) : ∃ b, Book.empty.replay log = some b ∧ Knows b s := by
  induction h with
  | init h =>
    unfold instantiateE at h
    simp only [bind_ok] at h
    obtain ⟨c, h1, u, h2, h⟩ := h
    cases h
    refine ⟨{ Book.empty with config := some c }, ?_, ?_⟩
    · simp [Book.replay, Book.see, configEvent, readConfig, num, Event.get_mk, readNat_showNat]
    · exact { config := rfl, denoms := fun _ => rfl, fees := fun _ => rfl, asks := fun _ => rfl, bids := fun _ => rfl,
              cbids := fun _ => rfl }
  | call hr hg _ _ h ih =>
    obtain ⟨b, hb, hk⟩ := ih
    rw [replay_append, hb]
    exact see_step hk hr.reach.wf hg (executeE_ev h)

/-! ### The event of a sale -/

theorem saleFees_labels {c : Config} {pf : ProtocolFees} {mk tk : Option Addr} {roy : Option Royalty} {fs : List Fee}
    (h : saleFees c pf mk tk roy = .ok fs) :
    (fs.map (fun f => f.label)).Sublist [.protocol, .maker, .taker, .royalty] ∧
    (∀ f ∈ fs, f.label = .protocol → f.recipient = c.feeManager) ∧
    (∀ f ∈ fs, f.label = .maker → mk = some f.recipient) ∧
    (∀ f ∈ fs, f.label = .royalty → ∃ r, roy = some r ∧ r.recipient = f.recipient) := by
  unfold saleFees at h
  simp only [bind_ok] at h
  obtain ⟨m, hm, t, ht, h⟩ := h
  cases h
  have e1 : m = [] ∨ ∃ a, mk = some a ∧ m = [⟨.maker, a, pf.makerReward⟩] := by
    split at hm
    · simp only [bind_ok, orErr_ok] at hm
      obtain ⟨a, ha, hm⟩ := hm
      cases hm
      exact Or.inr ⟨a, ha, rfl⟩
    · cases hm; exact Or.inl rfl
  have e2 : t = [] ∨ ∃ a, tk = some a ∧ t = [⟨.taker, a, pf.takerReward⟩] := by
    split at ht
    · simp only [bind_ok, orErr_ok] at ht
      obtain ⟨a, ha, ht⟩ := ht
      cases ht
      exact Or.inr ⟨a, ha, rfl⟩
    · cases ht; exact Or.inl rfl
  refine ⟨?_, ?_, ?_, ?_⟩
  · rcases e1 with rfl | ⟨a, _, rfl⟩ <;> rcases e2 with rfl | ⟨b, _, rfl⟩ <;> cases roy <;> split <;> simp
  all_goals
    intro f hf hl
    simp only [List.mem_append] at hf
    rcases hf with ((hf | hf) | hf) | hf
    · split at hf
      · rw [List.mem_singleton] at hf; subst hf; first | rfl | cases hl
      · cases hf
    · rcases e1 with rfl | ⟨a, ha, rfl⟩
      · cases hf
      · rw [List.mem_singleton] at hf; subst hf; first | exact ha | cases hl
    · rcases e2 with rfl | ⟨a, ha, rfl⟩
      · cases hf
      · rw [List.mem_singleton] at hf; subst hf; cases hl
    · cases roy with
      | none => cases hf
      | some r => rw [List.mem_singleton] at hf; subst hf; first | exact ⟨r, rfl, rfl⟩ | cases hl

/-- Labels, recipients and sum of the payments of a sale. -/
theorem SaleParts.pays {ctx : Ctx} {ask : Ask} {c : Config} {mb : MatchingBid} {abb : Bool}
    (x : SaleParts p ctx ask c mb abb) :
    (x.payments.map (fun y => y.label)).Sublist [.protocol, .maker, .taker, .royalty, .seller] ∧
    (x.payments.map (fun y => y.funds.amount)).sum = (saleTerms ask mb abb).1.amount ∧
    (∀ y ∈ x.payments, y.funds.denom = (saleTerms ask mb abb).1.denom) ∧
    (∀ y ∈ x.payments, y.label = .protocol → y.recipient = c.feeManager) ∧
    (∀ y ∈ x.payments, y.label = .maker → (saleTerms ask mb abb).2.1 = some y.recipient) ∧
    (∀ y ∈ x.payments, y.label = .royalty → ∃ r, royaltyOf ctx.q c.royaltyRegistry ask.collection = some r ∧
      r.recipient = y.recipient) ∧
    (∀ y ∈ x.payments, y.label = .seller → y.recipient = ask.assetRecipient) := by
  obtain ⟨h1, h2, h3, h4⟩ := saleFees_labels x.hfees
  rw [fetchOrSet_royalty x.hroy] at h4
  obtain ⟨h5, h6⟩ := buildPayments_ok x.hpay
  have hsum : ∀ l : List Fee, ((l.map (feePayment (saleTerms ask mb abb).1.denom (saleTerms ask mb abb).1.amount)).map
      (fun y => y.funds.amount)).sum = feeTotal (saleTerms ask mb abb).1.amount l := by
    intro l
    induction l with
    | nil => rfl
    | cons f l ih => simp only [List.map_cons, List.sum_cons, ih, feeTotal, feePayment]
  have hno : ∀ f ∈ x.fees, f.label ≠ .seller := by
    intro f hf e
    have := h1.subset (List.mem_map.mpr ⟨f, hf, e⟩)
    simp only [List.mem_cons, reduceCtorEq, List.not_mem_nil, or_false] at this
  have hmem : ∀ y ∈ x.payments, (∃ f ∈ x.fees, y.label = f.label ∧ y.recipient = f.recipient ∧
      y.funds.denom = (saleTerms ask mb abb).1.denom) ∨
      (y.label = .seller ∧ y.recipient = ask.assetRecipient ∧ y.funds.denom = (saleTerms ask mb abb).1.denom) := by
    intro y hy
    rw [h6, List.mem_append] at hy
    rcases hy with hy | hy
    · rw [List.mem_map] at hy
      obtain ⟨f, hf, rfl⟩ := hy
      unfold activeFees at hf
      exact Or.inl ⟨f, (List.mem_filter.mp hf).1, by simp only [feePayment], by simp only [feePayment],
        feePayment_denom _ _ _⟩
    · split at hy
      · cases hy
      · rw [List.mem_singleton] at hy; subst hy; exact Or.inr ⟨rfl, rfl, rfl⟩
  refine ⟨?_, ?_, ?_, ?_, ?_, ?_, ?_⟩
  · rw [h6, List.map_append]
    have e1 : (((activeFees x.fees).map (feePayment (saleTerms ask mb abb).1.denom (saleTerms ask mb abb).1.amount)).map
        (fun y => y.label)).Sublist [.protocol, .maker, .taker, .royalty] := by
      rw [List.map_map]
      exact (List.Sublist.map (fun f : Fee => f.label) List.filter_sublist).trans h1
    refine e1.append (l₂ := [Label.protocol, .maker, .taker, .royalty]) (r₂ := [Label.seller]) ?_
    split <;> simp
  · rw [h6, List.map_append, List.sum_append, hsum, feeTotal_active]
    split <;> simp <;> omega
  · intro y hy
    rcases hmem y hy with ⟨_, _, _, _, h⟩ | ⟨_, _, h⟩ <;> exact h
  · intro y hy hl
    rcases hmem y hy with ⟨f, hf, e1, e2, _⟩ | ⟨e1, _⟩
    · rw [e2]; exact h2 f hf (e1 ▸ hl)
    · rw [hl] at e1; cases e1
  · intro y hy hl
    rcases hmem y hy with ⟨f, hf, e1, e2, _⟩ | ⟨e1, _⟩
    · rw [e2]; exact h3 f hf (e1 ▸ hl)
    · rw [hl] at e1; cases e1
  · intro y hy hl
    rcases hmem y hy with ⟨f, hf, e1, e2, _⟩ | ⟨e1, _⟩
    · rw [e2]; exact h4 f hf (e1 ▸ hl)
    · rw [hl] at e1; cases e1
  · intro y hy hl
    rcases hmem y hy with ⟨f, hf, e1, e2, _⟩ | ⟨_, e2, _⟩
    · exact absurd (e1 ▸ hl) (hno f hf)
    · exact e2

theorem labelStr_inj {a b : Label} (h : labelStr a = labelStr b) : a = b := by
  revert h; cases a <;> cases b <;> simp [labelStr]

theorem get_pays (ty l : String) : ∀ ps : List Payment,
    num ⟨ty, ps.map (fun x => (labelStr x.label, showNat x.funds.amount))⟩ l =
      ((ps.map (fun x => (labelStr x.label, x.recipient, x.funds.amount))).find? (fun x => decide (x.1 = l))).map
        (fun x => x.2.2)
  | [] => rfl
  | x :: ps => by
    simp only [List.map_cons, List.find?_cons, num, Event.get_mk]
    by_cases h : labelStr x.label = l
    · simp [h, readNat_showNat]
    · simp only [h, if_false, decide_false]
      exact get_pays ty l ps

theorem sale_report {ctx : Ctx} {m : Exec} {s : State} {ask : Ask} {mb : MatchingBid} {abb : Bool} {pre post : List Msg}
    (hw : WF p s) (hlim : 1 ≤ p.maxLimit) (x : SaleParts p ctx ask s.config mb abb) (hb : SaleBy p s m ask mb abb)
    (h1 : OnlySends pre) (h2 : OnlySends post) :
    Nonempty (SaleReport ctx.q s m (pre ++ x.msgs ++ post) (saleEvent ask mb (saleTerms ask mb abb).1 x.payments)) := by
  obtain ⟨p1, p2, p3, p4, p5, p6, p7⟩ := x.pays
  have hfix : ∀ l ∈ ["protocol", "maker", "taker", "royalty", "seller"],
      (saleEvent ask mb (saleTerms ask mb abb).1 x.payments).get l =
        (Event.mk "finalize-sale" (x.payments.map (fun x => (labelStr x.label, showNat x.funds.amount)))).get l := by
    intro l hl
    simp only [List.mem_cons, List.not_mem_nil, or_false] at hl
    cases mb <;> rcases hl with rfl | rfl | rfl | rfl | rfl <;>
      simp [saleEvent, matchAttr, Event.get_mk]
  have hno : ∀ k, k ∉ ["protocol", "maker", "taker", "royalty", "seller"] →
      (Event.mk "finalize-sale" (x.payments.map (fun x => (labelStr x.label, showNat x.funds.amount)))).get k = none := by
    intro k hk
    unfold Event.get
    rw [Option.map_eq_none_iff, List.find?_eq_none]
    intro y hy
    rw [List.mem_map] at hy
    obtain ⟨z, _, rfl⟩ := hy
    simp only [decide_eq_true_eq]
    intro e
    apply hk
    rw [← e]
    cases z.label <;> simp [labelStr]
  have hpays : ∀ l a n, (l, a, n) ∈ x.payments.map (fun y => (labelStr y.label, y.recipient, y.funds.amount)) →
      ∃ y ∈ x.payments, labelStr y.label = l ∧ y.recipient = a := by
    intro l a n h
    rw [List.mem_map] at h
    obtain ⟨y, hy, h⟩ := h
    cases h
    exact ⟨y, hy, rfl, rfl⟩
  refine ⟨{
    coll := ask.collection
    tok := ask.tokenId
    denom := (saleTerms ask mb abb).1.denom
    price := (saleTerms ask mb abb).1.amount
    sellerTo := ask.assetRecipient
    nftTo := mb.recipient
    askId := ask.id
    pays := x.payments.map (fun y => (labelStr y.label, y.recipient, y.funds.amount))
    pre := pre ++ x.roy.2
    post := post
    hty := rfl
    hmsgs := ?_
    hpre := ?_
    hpost := h2
    hcoll := by simp [saleEvent, Event.get_mk]
    htok := by simp [saleEvent, Event.get_mk]
    hdenom := by simp [saleEvent, Event.get_mk]
    hprice := by simp [saleEvent, Event.get_mk, num, readNat_showNat]
    hseller := by simp [saleEvent, Event.get_mk]
    hnft := by simp [saleEvent, Event.get_mk]
    hask := by simp [saleEvent, Event.get_mk]
    hbid := ?_
    hpay := ?_
    hlab := ?_
    hsum := by rw [List.map_map]; exact p2
    hprot := ?_
    hsell := ?_
    hroy := ?_
    hmaker := ?_ }⟩
  · have e : payoutMsgs x.payments = (x.payments.map (fun y => (labelStr y.label, y.recipient, y.funds.amount))).map
        (fun z => Msg.send z.2.1 [⟨(saleTerms ask mb abb).1.denom, z.2.2⟩]) := by
      unfold payoutMsgs
      rw [List.map_map]
      apply List.map_congr_left
      intro y hy
      simp only [Function.comp_apply, ← p3 y hy]
    rw [SaleParts.msgs, e]
    simp [transferNft]
  · intro y hy
    rw [List.mem_append] at hy
    rcases hy with hy | hy
    · obtain ⟨a, cs, rfl⟩ := h1 y hy; rfl
    · rcases fetchOrSet_msgs x.hroy with h | h <;> rw [h] at hy
      · cases hy
      · rw [List.mem_singleton] at hy; subst hy; rfl
  · cases mb <;> simp [saleEvent, matchAttr, Event.get_mk, hno]
  · intro l hl
    rw [num, hfix l hl]
    exact get_pays _ l _
  · rw [List.map_map]
    have := p1.map labelStr
    rw [List.map_map] at this
    exact this
  · intro a n h
    obtain ⟨y, hy, hl, rfl⟩ := hpays _ _ _ h
    exact p4 y hy (labelStr_inj hl)
  · intro a n h
    obtain ⟨y, hy, hl, rfl⟩ := hpays _ _ _ h
    exact p7 y hy (labelStr_inj hl)
  · intro a n h
    obtain ⟨y, hy, hl, rfl⟩ := hpays _ _ _ h
    exact p6 y hy (labelStr_inj hl)
  · intro a n h
    obtain ⟨y, hy, hl, rfl⟩ := hpays _ _ _ h
    have h5 := p5 y hy (labelStr_inj hl)
    cases abb with
    | true =>
      rw [hb.side]
      exact ⟨ask, hb.ask rfl hlim hw, h5⟩
    | false =>
      rw [hb.side]
      cases mb with
      | bid o =>
        refine Or.inl ⟨o.id, o, ?_, hb.bid rfl hlim hw o rfl, h5⟩
        simp [saleEvent, matchAttr, Event.get_mk]
      | cbid o =>
        refine Or.inr ⟨o.id, o, ?_, hb.cbid rfl hlim hw o rfl, h5⟩
        simp [saleEvent, matchAttr, Event.get_mk]

/-- **C108** (1) Every successful call emits exactly one event, and this is a `finalize-sale` event if and only if
the call trades. -/
theorem C108_once {self : Addr} {G : State → Prop} {ctx : Ctx} {sender : Addr} {funds : List Coin} {m : Exec}
    {s s' : State} {msgs : List Msg} {evs : List Event} (hr : Reach p self G s) (hlim : 1 ≤ p.maxLimit)
    (hself : ctx.self = self) (h : executeE p ctx sender funds m s = .ok (s', msgs, evs)) :
    ∃ e, evs = [e] ∧ (e.ty = "finalize-sale" ↔ Trades m s' self msgs) := by
  have hw := hr.wf
  have hno : ∀ {ms : List Msg}, OnlySends ms → ∀ m s', ¬ Trades m s' self ms := by
    rintro ms h m s' ⟨c, t, to, hm, _⟩
    obtain ⟨_, _, e⟩ := h _ hm
    cases e
  cases executeE_ev h with
  | config | denom | setFee | rmFee | updAsk =>
    exact ⟨_, rfl, by simp [configEvent, collectionDenomEvent, listingFeeEvent, hno noSends]⟩
  | restAsk a ms hm hpr hnew hms =>
    refine ⟨_, rfl, by simp, ?_⟩
    rintro ⟨c, t, to, hmem, _, hn⟩
    obtain ⟨rfl, rfl, rfl⟩ := hms c t to hmem
    refine absurd ⟨hself, a.id, a, a.details, hm, ?_, rfl, rfl, rfl⟩ hn
    simp
  | rmAsk id a hm ha =>
    refine ⟨_, rfl, by simp, ?_⟩
    rintro ⟨c, t, to, hmem, hn, _⟩
    exact absurd hm (hn id)
  | restBid n a ms hpr hnew hms => exact ⟨_, rfl, by simp [hno hms]⟩
  | updBid id a d ms ha hpr hms => exact ⟨_, rfl, by simp [hno hms]⟩
  | rmBid id a ms ha hms => exact ⟨_, rfl, by simp [hno hms]⟩
  | restCBid n a ms hpr hnew hms => exact ⟨_, rfl, by simp [hno hms]⟩
  | updCBid id a d ms ha hpr hms => exact ⟨_, rfl, by simp [hno hms]⟩
  | rmCBid id a ms ha hms => exact ⟨_, rfl, by simp [hno hms]⟩
  | sale n ask mb abb pre post x hb h1 h2 =>
    refine ⟨_, rfl, fun _ => ?_, fun _ => rfl⟩
    refine ⟨ask.collection, ask.tokenId, mb.recipient, by simp [SaleParts.msgs, transferNft], hb.rm, ?_⟩
    rintro ⟨_, id, a, d, hm, ha, hc, ht, _⟩
    have hs := afterSale_shrink { s with nonce := n } ask mb
    have hid := hw.ask_id (k := id) (hs.ask ha)
    have hk := (hw.ask (hs.ask ha)).1
    rw [hc, ht, ← hb.id hlim hw, hk] at hid
    rw [hid, afterSale_ask] at ha
    cases ha

/-- **C108** (2) The `finalize-sale` event reports the sale as it is carried out by the messages. -/
theorem C108_report {self : Addr} {G : State → Prop} {ctx : Ctx} {sender : Addr} {funds : List Coin} {m : Exec}
    {s s' : State} {msgs : List Msg} {evs : List Event} {e : Event} (hr : Reach p self G s) (hlim : 1 ≤ p.maxLimit)
    (h : executeE p ctx sender funds m s = .ok (s', msgs, evs)) (he : e ∈ evs) (hty : e.ty = "finalize-sale") :
    Nonempty (SaleReport ctx.q s m msgs e) := by
  have hw := hr.wf
  cases executeE_ev h with
  | sale n ask mb abb pre post x hb h1 h2 =>
    rw [List.mem_singleton] at he
    subst he
    exact sale_report hw hlim x hb h1 h2
  | _ => rw [List.mem_singleton] at he; subst he; simp [configEvent, collectionDenomEvent, listingFeeEvent] at hty

end

/-! ### A concrete history -/

namespace Sample

/-- Check of `PlainDenoms` by running through the table. -/
def plainOk (s : State) : Bool :=
  decide (PlainDenom s.config.defaultDenom) && s.collectionDenoms.l.all (fun kd => decide (PlainDenom kd.2))

theorem plainOk_spec {s : State} (h : plainOk s = true) : PlainDenoms s := by
  unfold plainOk at h
  rw [Bool.and_eq_true, decide_eq_true_eq, List.all_eq_true] at h
  refine ⟨h.1, fun k d hk => ?_⟩
  have := h.2 _ (AMap.mem_iff.mpr hk)
  exact of_decide_eq_true this

/-- Calls one after the other, collecting the events; fails if a call fails or a denom is not plain. -/
def play : List (Ctx × Addr × List Coin × Exec) → State × List Event → Option (State × List Event)
  | [], x => some x
  | (c, sender, funds, m) :: cs, (s, log) =>
    if c.self = self ∧ sender ≠ self ∧ plainOk s = true then
      match executeE P c sender funds m s with
      | .ok (s', _, evs) => play cs (s', log ++ evs)
      | .error _ => none
    else none

theorem play_logged : ∀ {cs : List (Ctx × Addr × List Coin × Exec)} {x y : State × List Event},
    Logged P [109] [50] self PlainDenoms x.1 x.2 → play cs x = some y → Logged P [109] [50] self PlainDenoms y.1 y.2
  | [], x, y, h, hp => by cases hp; exact h
  | (c, sender, funds, m) :: cs, (s, log), y, h, hp => by
    unfold play at hp
    split at hp
    case isFalse => cases hp
    case isTrue hc =>
      split at hp
      case h_2 => cases hp
      case h_1 s' ms evs he => exact play_logged (.call h (plainOk_spec hc.2.2) hc.1 hc.2.1 he) hp

def log0 : List Event :=
  [⟨"instantiate", [("contract_name", [109]), ("contract_version", [50])]⟩, configEvent "set-config" cfg]

theorem logged0 : Logged P [109] [50] self PlainDenoms s0 log0 := .init (c := cfg) rfl

/-- listing fee, ask, bid, collection bid, change of the bid, sale to a higher bid -/
def script : List (Ctx × Addr × List Coin × Exec) :=
  [(ctx none, admin, [], .setListingFee ⟨ust, 5⟩),
   (ctx (some alice), alice, [⟨ust, 5⟩], .setAsk coll tok (det 100)),
   (ctx (some self), bob, [⟨ust, 80⟩], .setBid coll tok (det' 80 carol)),
   (ctx (some self), carol, [⟨ust, 95⟩], .setCollectionBid coll (det 90)),
   (ctx (some self), bob, [⟨ust, 5⟩], .updateBid bid (det' 85 carol)),
   (ctx (some self), carol, [⟨ust, 100⟩], .buySpecificNft coll tok (det' 100 bob))]

def final : State × List Event := (play script (s0, log0)).getD (s0, log0)

theorem play_final : play script (s0, log0) = some final := by
  unfold final
  cases h : play script (s0, log0) with
  | some y => rfl
  | none =>
    have : (play script (s0, log0)).isSome = true := by decide +kernel
    rw [h] at this; cases this

/-- The hypotheses of C107 hold for this history; its log and the orders the observer knows in the end. -/
example : ∃ b, Book.empty.replay final.2 = some b ∧ Knows b final.1 := C107_replay (play_logged logged0 play_final)
example : final.2.map (fun e => e.ty) = ["instantiate", "set-config", "set-listing-fee", "set-ask", "set-bid",
    "set-collection-bid", "update-bid", "finalize-sale"] := by decide +kernel
example : ((Book.empty.replay final.2).map fun b => (b.asks aid, (b.bids bid).map (fun o => o.details.price.amount),
    (b.cbids cid).isSome)) = some (none, some 85, true) := by decide +kernel

/-- The event of the sale at 100: 2% protocol fee of which a tenth goes to bob as finder named by the buyer, 5% royalty. -/
example : (final.2.getLast?.map fun e => ["price", "protocol", "maker", "taker", "royalty", "seller"].map (num e)) =
    some [some 100, some 2, none, some 1, some 5, some 92] := by decide +kernel

/-- The hypotheses of C108 hold for a trade. -/
def evBuy : State × List Msg × List Event :=
  match executeE P (ctx (some self)) carol [⟨ust, 100⟩] (.acceptAsk aid (det' 100 bob)) s4 with
  | .ok r => r
  | .error _ => (s4, [], [])

theorem evBuy_ok : executeE P (ctx (some self)) carol [⟨ust, 100⟩] (.acceptAsk aid (det' 100 bob)) s4 = .ok evBuy := by
  unfold evBuy
  cases h : executeE P (ctx (some self)) carol [⟨ust, 100⟩] (.acceptAsk aid (det' 100 bob)) s4 with
  | ok r => rfl
  | error e =>
    have : ok (ctx (some self)) carol [⟨ust, 100⟩] (.acceptAsk aid (det' 100 bob)) s4 = true := by decide +kernel
    unfold ok at this
    rw [← executeE_drop, h] at this
    cases this

example : ∃ e, evBuy.2.2 = [e] ∧ (e.ty = "finalize-sale" ↔ Trades (.acceptAsk aid (det' 100 bob)) evBuy.1 self evBuy.2.1) :=
  C108_once r4 (by decide) rfl evBuy_ok
example : evBuy.2.2.map (fun e => e.ty) = ["finalize-sale"] := by decide +kernel
theorem evBuy_report {r : State × List Msg × List Event}
    (h : executeE P (ctx (some self)) carol [⟨ust, 100⟩] (.acceptAsk aid (det' 100 bob)) s4 = .ok r)
    (ht : r.2.2.map (fun e => e.ty) = ["finalize-sale"]) :
    ∃ e ∈ r.2.2, Nonempty (SaleReport (ctx (some self)).q s4 (.acceptAsk aid (det' 100 bob)) r.2.1 e) := by
  obtain ⟨s', ms, evs⟩ := r
  obtain ⟨e, rfl, _⟩ := C108_once r4 (by decide) rfl h
  exact ⟨e, List.mem_singleton.mpr rfl, C108_report r4 (by decide) h (List.mem_singleton.mpr rfl) (by simpa using ht)⟩
example := evBuy_report evBuy_ok (by decide +kernel)

end Sample
end Verif.V2

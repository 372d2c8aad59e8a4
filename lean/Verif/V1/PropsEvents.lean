/-
Properties C111–C113: what the events of marketplace v1 tell an observer.
-/
import Verif.V1.EventLemmas
import Verif.V1.EventSpec
import Verif.V1.Sample
import Verif.V1.Sale

namespace Verif.V1
open Verif Spec

section
variable {p : Params}

theorem know_put {K V W : Type} [DecidableEq K] {f : K → Option W} {g : V → W} {m : AMap K V}
    (h : ∀ k, f k = (m.get? k).map g) (k : K) (v : V) {w : W} (hw : w = g v) :
    ∀ x, put f k (some w) x = ((m.insert k v).get? x).map g := by
  intro x
  simp only [put, AMap.get?_insert, h, hw]
  split <;> rfl

theorem know_del {K V W : Type} [DecidableEq K] {f : K → Option W} {g : V → W} {m : AMap K V}
    (h : ∀ k, f k = (m.get? k).map g) (k : K) : ∀ x, put f k none x = ((m.erase k).get? x).map g := by
  intro x
  simp only [put, AMap.get?_erase, h]
  split <;> rfl

theorem replay_append (b : Book) (x : Bool) : ∀ (l r : List Event),
    b.replay x (l ++ r) = (b.replay x l).bind fun b' => b'.replay x r
  | [], _ => rfl
  | e :: l, r => by
    simp only [List.cons_append, Book.replay]
    cases b.see x e with
    | none => rfl
    | some b' => exact replay_append b' x l r

theorem replay_one (b : Book) (x : Bool) (e : Event) : b.replay x [e] = b.see x e := by
  simp only [Book.replay]
  cases b.see x e <;> rfl

theorem hear_append (b : Book) : ∀ (l r : List (List Event)), b.hear (l ++ r) = (b.hear l).bind fun b' => b'.hear r
  | [], _ => rfl
  | e :: l, r => by
    simp only [List.cons_append, Book.hear]
    cases b.replay (hasSale e) e with
    | none => rfl
    | some b' => exact hear_append b' l r

theorem hear_one (b : Book) (r : List Event) : b.hear [r] = b.replay (hasSale r) r := by
  simp only [Book.hear]
  cases b.replay (hasSale r) r <;> rfl

theorem plain_native : PlainDenom NATIVE := by decide +kernel

theorem readCoin_native {c : Coin} (h : c.denom = NATIVE) : readCoin (showCoin c) = some c :=
  readCoin_showCoin (by rw [h]; exact plain_native)

theorem flag_show (b : Bool) : (if showBool b = txt "true" then some true else
    if showBool b = txt "false" then some false else none) = some b := by
  cases b <;> decide +kernel

theorem sale_show (t : SaleType) : (if showSale t = txt "fixed_price" then some SaleType.fixedPrice else
    if showSale t = txt "auction" then some SaleType.auction else none) = some t := by
  cases t <;> decide +kernel

/-! ### Sales -/

theorem see_sale (b : Book) (x : Bool) (a : Ask) (price : Nat) (buyer r : Addr) :
    b.see x (saleEvent a price buyer r) = some { b with asks := put b.asks (a.collection, a.tokenId) none } := by
  simp [Book.see, saleEvent, tokenNamed, num, Event.get_mk, readNat_tokStr]

theorem see_royalty (b : Book) (x : Bool) (coll : Addr) (n : Nat) (r : Addr) :
    b.see x (royaltyEvent coll n r) = some b := by
  simp [Book.see, royaltyEvent]

theorem replay_sold {ctx : Ctx} {s : State} {a : Ask} {price : Nat} {buyer : Addr} {finder recipient : Option Addr}
    {sale : List Msg} {es : List Event} (h : SoldE ctx s a price buyer finder recipient sale es) (b : Book) (x : Bool) :
    b.replay x es = some { b with asks := put b.asks (a.collection, a.tokenId) none } := by
  cases h with
  | mk pay es h =>
    cases h with
    | royalty => simp [Book.replay, see_royalty, see_sale]
    | plain => simp [Book.replay, see_sale]

theorem hasSale_append (a b : List Event) : hasSale (a ++ b) = (hasSale a || hasSale b) := List.any_append

theorem hasSale_sold {ctx : Ctx} {s : State} {a : Ask} {price : Nat} {buyer : Addr} {finder recipient : Option Addr}
    {sale : List Msg} {es : List Event} (h : SoldE ctx s a price buyer finder recipient sale es) : hasSale es = true := by
  cases h with
  | mk pay es h => rw [hasSale_append]; simp [hasSale, saleEvent]

/-! ### One call -/

theorem replay_call {b : Book} {me : Addr} {ctx : Ctx} {sender : Addr} {funds : List Coin} {m : Exec} {s s' : State}
    {msgs : List Msg} {evs : List Event} (hk : Knows b s) (hw : WF p me s) (h : EvEff p ctx sender funds s m s' msgs evs) :
    ∃ b', b.replay (hasSale evs) evs = some b' ∧ Knows b' s' := by
  cases h with
  | setAsk ty coll tok price recipient reserveFor fee expires a burn hden hb ha =>
    subst ha
    refine ⟨{ b with asks := put b.asks (coll, tok) (some ⟨ty, sender, price.amount, reserveFor, expires, true⟩) }, ?_,
      { hk with asks := know_put hk.asks _ _ rfl }⟩
    rw [replay_one]
    simp [Book.see, setAskEvent, tokenNamed, num, coin, time, saleAttr, Event.get_mk, Event.get_append, Event.get_opt,
      Event.get_nil, readNat_tokStr, readTime_showTime, readCoin_native hden, sale_show, hden, ustars_eq]
  | removeAsk coll tok a ha =>
    have hv : b.asks (coll, tok) = some (askView a) := by rw [hk.asks, ha]; rfl
    refine ⟨{ b with asks := put b.asks (coll, tok) none }, ?_, { hk with asks := know_del hk.asks _ }⟩
    rw [replay_one]
    simp [Book.see, removeAskEvent, tokenNamed, num, Event.get_mk, Event.get_nil, readNat_tokStr, hv]
  | updatePrice coll tok price a hden ha =>
    have hv : b.asks (coll, tok) = some (askView a) := by rw [hk.asks, ha]; rfl
    refine ⟨{ b with asks := put b.asks (coll, tok) (some { askView a with price := price.amount }) }, ?_,
      { hk with asks := know_put hk.asks _ _ rfl }⟩
    rw [replay_one]
    simp [Book.see, updateAskEvent, tokenNamed, num, coin, Event.get_mk, readNat_tokStr, readCoin_native hden, hv, hden,
      ustars_eq]
  | bidSaved _ b0 price bid hm hfunds hbid =>
    subst hbid
    refine ⟨{ b with bids := put b.bids (b0.coll, b0.tok, sender) (some ⟨price, b0.expires⟩) }, ?_,
      { hk with bids := ?_ }⟩
    · rw [replay_one]
      simp [Book.see, setBidEvent, bidNamed, tokenNamed, num, time, Event.get_mk, readNat_tokStr, readNat_showNat,
        readTime_showTime, hasSale]
    · intro x
      simp only [put, AMap.get?_insert, AMap.get?_erase, hk.bids]
      split <;> rfl
  | bought _ b0 price bid ask sale es hm hfunds hbid ha hprice hsale =>
    subst hbid
    have hkey : (ask.collection, ask.tokenId) = (b0.coll, b0.tok) := (hw.asks _ _ ha).key
    refine ⟨{ b with asks := put b.asks (b0.coll, b0.tok) none, bids := put b.bids (b0.coll, b0.tok, sender) none }, ?_,
      { hk with asks := know_del hk.asks _, bids := know_del hk.bids _ }⟩
    rw [hasSale_append, hasSale_sold hsale, Bool.true_or, replay_append, replay_sold hsale, Option.bind_some, replay_one,
      hkey]
    simp [Book.see, setBidEvent, bidNamed, tokenNamed, num, time, Event.get_mk, readNat_tokStr, readNat_showNat,
      readTime_showTime]
  | removeBid coll tok bid hb =>
    have hv : b.bids (coll, tok, sender) = some (bidView bid) := by rw [hk.bids, hb]; rfl
    refine ⟨{ b with bids := put b.bids (coll, tok, sender) none }, ?_, { hk with bids := know_del hk.bids _ }⟩
    rw [replay_one]
    simp [Book.see, removeBidEvent, bidNamed, tokenNamed, num, Event.get_mk, readNat_tokStr, hv]
  | acceptBid coll tok bidder finder bid sale es hb hsale =>
    have hv : b.bids (coll, tok, bidder) = some (bidView bid) := by rw [hk.bids, hb]; rfl
    have hp : (bidView bid).price = bid.price := rfl
    refine ⟨{ b with asks := put b.asks (coll, tok) none, bids := put b.bids (coll, tok, bidder) none }, ?_,
      { hk with asks := know_del hk.asks _, bids := know_del hk.bids _ }⟩
    rw [replay_append, replay_sold hsale, Option.bind_some, replay_one]
    simp [Book.see, acceptBidEvent, bidNamed, tokenNamed, num, Event.get_mk, readNat_tokStr, readNat_showNat, hv, hp, tempAsk]
  | rejectBid coll tok bidder bid hb =>
    have hv : b.bids (coll, tok, bidder) = some (bidView bid) := by rw [hk.bids, hb]; rfl
    have hp : (bidView bid).price = bid.price := rfl
    refine ⟨{ b with bids := put b.bids (coll, tok, bidder) none }, ?_, { hk with bids := know_del hk.bids _ }⟩
    rw [replay_one]
    simp [Book.see, rejectBidEvent, bidNamed, tokenNamed, num, Event.get_mk, readNat_tokStr, readNat_showNat, hv, hp]
  | setCBid coll expires fee price bid hfunds hbid =>
    subst hbid
    refine ⟨{ b with cbids := put b.cbids (coll, sender) (some ⟨price, expires⟩) }, ?_,
      { hk with cbids := know_put hk.cbids _ _ rfl }⟩
    rw [replay_one]
    simp [Book.see, setCBidEvent, cbidNamed, num, time, Event.get_mk, readNat_showNat, readTime_showTime]
  | removeCBid coll bid hb =>
    have hv : b.cbids (coll, sender) = some (cbidView bid) := by rw [hk.cbids, hb]; rfl
    refine ⟨{ b with cbids := put b.cbids (coll, sender) none }, ?_, { hk with cbids := know_del hk.cbids _ }⟩
    rw [replay_one]
    simp [Book.see, removeCBidEvent, cbidNamed, Event.get_mk, hv]
  | acceptCBid coll tok bidder finder bid sale es hb hsale =>
    have hv : b.cbids (coll, bidder) = some (cbidView bid) := by rw [hk.cbids, hb]; rfl
    have hp : (cbidView bid).price = bid.price := rfl
    refine ⟨{ b with asks := put b.asks (coll, tok) none, cbids := put b.cbids (coll, bidder) none }, ?_,
      { hk with asks := know_del hk.asks _, cbids := know_del hk.cbids _ }⟩
    rw [replay_append, replay_sold hsale, Option.bind_some, replay_one]
    simp [Book.see, acceptCBidEvent, cbidNamed, num, Event.get_mk, readNat_showNat, hv, hp, tempAsk]
  | syncAsk coll tok a act ha hdiff hact =>
    have hv : b.asks (coll, tok) = some (askView a) := by rw [hk.asks, ha]; rfl
    have hp : (askView a).active = a.isActive := rfl
    refine ⟨{ b with asks := put b.asks (coll, tok) (some { askView a with active := act }) }, ?_,
      { hk with asks := know_put hk.asks _ _ rfl }⟩
    rw [replay_one]
    simp [Book.see, syncEvent, tokenNamed, num, flag, Event.get_mk, readNat_tokStr, hv, hp, flag_show, hdiff]
  | staleAsk coll tok a ex ow ap ha hst hex how hap =>
    have hv : b.asks (coll, tok) = some (askView a) := by rw [hk.asks, ha]; rfl
    refine ⟨{ b with asks := put b.asks (coll, tok) none }, ?_, { hk with asks := know_del hk.asks _ }⟩
    rw [replay_one]
    simp [Book.see, staleAskEvent, tokenNamed, num, flag, Event.get_mk, readNat_tokStr, hv, flag_show, hst]
  | staleBid coll tok bidder bid r hb hle =>
    have hv : b.bids (coll, tok, bidder) = some (bidView bid) := by rw [hk.bids, hb]; rfl
    refine ⟨{ b with bids := put b.bids (coll, tok, bidder) none }, ?_, { hk with bids := know_del hk.bids _ }⟩
    rw [replay_one]
    simp [Book.see, staleBidEvent, bidNamed, tokenNamed, num, Event.get_mk, readNat_tokStr, hv]
  | staleCBid coll bidder bid r hb hle =>
    have hv : b.cbids (coll, bidder) = some (cbidView bid) := by rw [hk.cbids, hb]; rfl
    refine ⟨{ b with cbids := put b.cbids (coll, bidder) none }, ?_, { hk with cbids := know_del hk.cbids _ }⟩
    rw [replay_one]
    simp [Book.see, staleCBidEvent, cbidNamed, Event.get_mk, hv]

theorem action_mk (a : String) (k : String) (v : Bytes)
    (h : String.ofList ((txt a).map (fun b => Char.ofNat b.toNat)) = a) : action (actionEvent a k v) = some a := by
  simp only [action, actionEvent, Event.get_mk, if_true, Option.map_some, h]

theorem see_sudo {b : Book} {m : Sudo} {s s' : State} (x : Bool) (hk : Knows b s) (h : SEff p s m s') :
    ∃ b', b.see x (sudoEvent m) = some b' ∧ Knows b' s' := by
  have hw : ∀ (b : Book) a k v, b.see x (actionEvent a k v) = b.seeAction (actionEvent a k v) := fun _ _ _ _ => rfl
  cases h with
  | params u c hops =>
    refine ⟨b, ?_, { hk with operators := hk.operators.trans hops.symm }⟩
    have ha : action (sudoEvent (.updateParams u)) = some "update_params" := by
      simp only [action, sudoEvent, Event.get_mk, if_true, Option.map_some]; decide +kernel
    have he : b.see x (sudoEvent (.updateParams u)) = b.seeAction (sudoEvent (.updateParams u)) := if_pos rfl
    simp [he, Book.seeAction, ha]
  | addOp a hv h =>
    refine ⟨{ b with operators := b.operators ++ [a] }, ?_, { hk with operators := by simp only [hk.operators] }⟩
    rw [← hk.operators] at h
    simp only [sudoEvent, hw, Book.seeAction, action_mk "add_operator" _ _ (by decide +kernel)]
    simp [actionEvent, Event.get_mk, enlist, h]
  | removeOp a hv h =>
    refine ⟨{ b with operators := b.operators.erase a }, ?_, { hk with operators := by simp only [hk.operators] }⟩
    rw [← hk.operators] at h
    simp only [sudoEvent, hw, Book.seeAction, action_mk "remove_operator" _ _ (by decide +kernel)]
    simp [actionEvent, Event.get_mk, delist, h]
  | addSale a hv h =>
    refine ⟨{ b with saleHooks := b.saleHooks ++ [a] }, ?_, { hk with saleHooks := by simp only [hk.saleHooks] }⟩
    rw [← hk.saleHooks] at h
    simp only [sudoEvent, hw, Book.seeAction, action_mk "add_sale_hook" _ _ (by decide +kernel)]
    simp [actionEvent, Event.get_mk, enlist, h]
  | addAsk a hv h =>
    refine ⟨{ b with askHooks := b.askHooks ++ [a] }, ?_, { hk with askHooks := by simp only [hk.askHooks] }⟩
    rw [← hk.askHooks] at h
    simp only [sudoEvent, hw, Book.seeAction, action_mk "add_ask_hook" _ _ (by decide +kernel)]
    simp [actionEvent, Event.get_mk, enlist, h]
  | addBid a hv h =>
    refine ⟨{ b with bidHooks := b.bidHooks ++ [a] }, ?_, { hk with bidHooks := by simp only [hk.bidHooks] }⟩
    rw [← hk.bidHooks] at h
    simp only [sudoEvent, hw, Book.seeAction, action_mk "add_bid_hook" _ _ (by decide +kernel)]
    simp [actionEvent, Event.get_mk, enlist, h]
  | removeSale a hv h =>
    refine ⟨{ b with saleHooks := b.saleHooks.erase a }, ?_, { hk with saleHooks := by simp only [hk.saleHooks] }⟩
    rw [← hk.saleHooks] at h
    simp only [sudoEvent, hw, Book.seeAction, action_mk "remove_sale_hook" _ _ (by decide +kernel)]
    simp [actionEvent, Event.get_mk, delist, h]
  | removeAsk a hv h =>
    refine ⟨{ b with askHooks := b.askHooks.erase a }, ?_, { hk with askHooks := by simp only [hk.askHooks] }⟩
    rw [← hk.askHooks] at h
    simp only [sudoEvent, hw, Book.seeAction, action_mk "remove_ask_hook" _ _ (by decide +kernel)]
    simp [actionEvent, Event.get_mk, delist, h]
  | removeBid a hv h =>
    refine ⟨{ b with bidHooks := b.bidHooks.erase a }, ?_, { hk with bidHooks := by simp only [hk.bidHooks] }⟩
    rw [← hk.bidHooks] at h
    simp only [sudoEvent, hw, Book.seeAction, action_mk "remove_bid_hook" _ _ (by decide +kernel)]
    simp [actionEvent, Event.get_mk, delist, h]

theorem see_reply {b : Book} {id : Nat} {error : Bytes} {evs : List Event} (x : Bool) (h : replyE id error = .ok evs) :
    b.replay x evs = some b := by
  have hw : ∀ (b : Book) a k v, b.see x (actionEvent a k v) = b.seeAction (actionEvent a k v) := fun _ _ _ _ => rfl
  unfold replyE at h
  split at h <;> cases h <;> rw [replay_one, hw]
  · simp [Book.seeAction, action_mk "ask-hook-failed" _ _ (by decide +kernel)]
  · simp [Book.seeAction, action_mk "sale-hook-failed" _ _ (by decide +kernel)]
  · simp [Book.seeAction, action_mk "bid-hook-failed" _ _ (by decide +kernel)]
  · simp [Book.seeAction, action_mk "collection-bid-hook-failed" _ _ (by decide +kernel)]

theorem Spec.Logged.wf {me : Addr} {s0 s : State} {log : List (List Event)} (h0 : WF p me s0)
    (h : Logged p me s0 s log) : WF p me s := by
  induction h with
  | start => exact h0
  | call hr hself hne h ih => exact ih.step (.call hself hne (executeE_ok h))
  | sudo hr hself h ih => exact ih.step (.sudo hself (sudoE_ok h).1)
  | reply hr h ih => exact ih

/-! ### C111: the events tell the order book -/

/-- An observer who reads the events one after the other from deployment on, taking each for what its name says (`set-bid`:
the bid is placed), knows all open orders, the operators and the hooks. -/
def C111_statement : Prop :=
  ∀ (p : Params) (me : Addr) (i : Init) (s0 s : State) (log : List (List Event)), instantiate p i = .ok s0 →
    Logged p me s0 s log →
    ∃ b, (Book.start s0.params.operators s0.saleHooks).naive log = some b ∧ Knows b s

/-- The observer stays in step with the contract, response by response, wherever it starts. -/
theorem C111_partial_step {b : Book} {me : Addr} {s0 s : State} {log : List (List Event)} (hk : Knows b s0)
    (hw : WF p me s0) (h : Logged p me s0 s log) : ∃ b', b.hear log = some b' ∧ Knows b' s := by
  induction h with
  | start => exact ⟨b, rfl, hk⟩
  | call hr hself hne h ih =>
    obtain ⟨b1, e1, k1⟩ := ih
    obtain ⟨b2, e2, k2⟩ := replay_call k1 (hr.wf hw) (executeE_eff h)
    exact ⟨b2, by rw [hear_append, e1, Option.bind_some, hear_one, e2], k2⟩
  | sudo hr hself h ih =>
    obtain ⟨b1, e1, k1⟩ := ih
    obtain ⟨h1, rfl⟩ := sudoE_ok h
    obtain ⟨b2, e2, k2⟩ := see_sudo (hasSale [sudoEvent _]) k1 (sudo_eff h1).1
    exact ⟨b2, by rw [hear_append, e1, Option.bind_some, hear_one, replay_one, e2], k2⟩
  | reply hr h ih =>
    obtain ⟨b1, e1, k1⟩ := ih
    exact ⟨b1, by rw [hear_append, e1, Option.bind_some, hear_one, see_reply _ h], k1⟩

/-- With the rule that a `set-bid` in the same response as a `finalize-sale` is not a stored bid, the observer knows all open
orders (but for finder's fees and recipients of funds), the operators and the hooks. -/
theorem C111_partial {me : Addr} {i : Init} {s0 s : State} {log : List (List Event)} (hi : instantiate p i = .ok s0)
    (h : Logged p me s0 s log) : ∃ b, (Book.start s0.params.operators s0.saleHooks).hear log = some b ∧ Knows b s := by
  refine C111_partial_step ?_ (WF.init hi) h
  have h0 := init_empty hi
  have h1 : s0.askHooks = [] ∧ s0.bidHooks = [] := by
    simp only [instantiate, bind_ok] at hi
    obtain ⟨_, _, _, _, _, _, _, _, _, _, _, _, _, _, _, _, hi⟩ := hi
    cases hi
    exact ⟨rfl, rfl⟩
  exact ⟨fun k => by rw [h0.1]; rfl, fun k => by rw [h0.2.1]; rfl, fun k => by rw [h0.2.2]; rfl, rfl, h1.1.symm, h1.2.symm,
    rfl⟩

/-- Every history has a log. -/
theorem C111_partial_log {me : Addr} {s0 s : State} (h : After p me s0 s) : ∃ log, Logged p me s0 s log := by
  induction h with
  | refl => exact ⟨[], .start⟩
  | step h hs ih =>
    obtain ⟨log, hl⟩ := ih
    cases hs with
    | call hself hne h =>
      obtain ⟨evs, he⟩ := executeE_of h
      exact ⟨_, .call hl hself hne he⟩
    | sudo hself h =>
      obtain ⟨evs, he⟩ := sudoE_of h
      exact ⟨_, .sudo hl hself he⟩

/-! ### C112: the events of a response -/

theorem typeOf_bid {m : Exec} {b : BidArgs} (h : bidArgs m = some b) : typeOf m = "set-bid" := by
  cases m <;> cases h <;> rfl

theorem terms_bid {s : State} {sender : Addr} {m : Exec} {b : BidArgs} (h : bidArgs m = some b) :
    terms s sender m = (s.asks.get? (b.coll, b.tok)).map (fun a => ⟨b.coll, b.tok, a.price, a.seller,
      a.fundsRecipient.getD a.seller, sender, b.recipient.getD sender, b.finder, a.findersFee⟩) := by
  cases m <;> cases h <;> rfl

theorem soldE_shape {ctx : Ctx} {s : State} {a : Ask} {price : Nat} {buyer : Addr} {finder recipient : Option Addr}
    {sale : List Msg} {es : List Event} (h : SoldE ctx s a price buyer finder recipient sale es) :
    (∃ e, es = [e] ∧ e.ty = "finalize-sale") ∨
      (∃ r e, es = [r, e] ∧ r.ty = "royalty-payout" ∧ e.ty = "finalize-sale") := by
  cases h with
  | mk pay es h =>
    cases h with
    | royalty => exact .inr ⟨_, _, rfl, rfl, rfl⟩
    | plain => exact .inl ⟨_, rfl, rfl⟩

theorem handed_finder (f : Option Addr) (n : Nat) (r : List Msg) : handed (finderMsg f n ++ r) = handed r := by
  unfold finderMsg
  split
  · split <;> rfl
  · rfl

theorem handed_refund (o : Option Nat) (a : Addr) : handed (refund o a) = [] := by cases o <;> rfl

theorem handed_sold {ctx : Ctx} {s : State} {a : Ask} {price : Nat} {buyer : Addr} {finder recipient : Option Addr}
    {sale : List Msg} {es : List Event} (h : SoldE ctx s a price buyer finder recipient sale es) :
    handed sale = [(a.collection, tokStr a.tokenId, recipient.getD buyer)] := by
  cases h with
  | mk pay es h =>
    have : handed pay = [] := by
      cases h with
      | royalty => simp [handed, handed_finder]
      | plain => simp [handed, handed_finder]
    simp [handed_append, this, handed, saleHook, handed_hooks]

theorem handed_burn : ∀ {l : List Msg}, (∀ m ∈ l, ∃ c, m = .fairBurn c) → handed l = []
  | [], _ => rfl
  | m :: l, h => by
    obtain ⟨c, rfl⟩ := h m List.mem_cons_self
    exact handed_burn (l := l) (fun x hx => h x (List.mem_cons_of_mem _ hx))

/-- The response to a call ends with one event of the type that belongs to the message. Before it there is nothing if no
token is handed over, and else a `finalize-sale`, with a `royalty-payout` before it if a royalty is paid. -/
theorem C112_shape {ctx : Ctx} {sender : Addr} {funds : List Coin} {m : Exec} {s s' : State} {msgs : List Msg}
    {evs : List Event} (h : executeE p ctx sender funds m s = .ok (s', msgs, evs)) :
    ∃ es e, evs = es ++ [e] ∧ e.ty = typeOf m ∧
      (handed msgs = [] ∧ es = [] ∨
       handed msgs ≠ [] ∧ ((∃ f, es = [f] ∧ f.ty = "finalize-sale") ∨
        (∃ r f, es = [r, f] ∧ r.ty = "royalty-payout" ∧ f.ty = "finalize-sale"))) := by
  have he := executeE_eff h
  cases he with
  | setAsk ty coll tok price recipient reserveFor fee expires a burn hden hb ha =>
    exact ⟨[], _, rfl, rfl, .inl ⟨by rw [handed_append, handed_burn hb]; exact handed_hooks _ _, rfl⟩⟩
  | bidSaved _ b0 price bid hm hfunds hbid =>
    refine ⟨[], _, rfl, ?_, .inl ⟨by rw [handed_append, handed_refund]; exact handed_hooks _ _, rfl⟩⟩
    exact (typeOf_bid hm).symm
  | bought _ b0 price bid ask sale es hm hfunds hbid ha hprice hsale =>
    refine ⟨es, _, rfl, ?_, .inr ⟨by rw [handed_append, handed_sold hsale]; simp, soldE_shape hsale⟩⟩
    exact (typeOf_bid hm).symm
  | acceptBid coll tok bidder finder bid sale es hb hsale =>
    exact ⟨es, _, rfl, rfl, .inr ⟨by rw [handed_sold hsale]; simp, soldE_shape hsale⟩⟩
  | acceptCBid coll tok bidder finder bid sale es hb hsale =>
    exact ⟨es, _, rfl, rfl, .inr ⟨by rw [handed_sold hsale]; simp, soldE_shape hsale⟩⟩
  | setCBid coll expires fee price bid hfunds hbid =>
    refine ⟨[], _, rfl, rfl, .inl ⟨?_, rfl⟩⟩
    rw [handed_append]
    split <;> exact handed_hooks _ _
  | _ => exact ⟨[], _, rfl, rfl, .inl ⟨handed_hooks _ _, rfl⟩⟩

theorem soldTo_append (a b : List Event) : soldTo (a ++ b) = soldTo a ++ soldTo b := List.filterMap_append
theorem royaltySends_append (a b : List Event) : royaltySends (a ++ b) = royaltySends a ++ royaltySends b :=
  List.filterMap_append

theorem soldTo_other {e : Event} (h : e.ty ≠ "finalize-sale") : soldTo [e] = [] := by simp [soldTo, h]
theorem royaltySends_other {e : Event} (h : e.ty ≠ "royalty-payout") : royaltySends [e] = [] := by simp [royaltySends, h]

theorem soldTo_sold {ctx : Ctx} {s : State} {a : Ask} {price : Nat} {buyer : Addr} {finder recipient : Option Addr}
    {sale : List Msg} {es : List Event} (h : SoldE ctx s a price buyer finder recipient sale es) :
    soldTo es = [(a.collection, tokStr a.tokenId, recipient.getD buyer)] := by
  have hs : soldTo [saleEvent a price buyer (recipient.getD buyer)] =
      [(a.collection, tokStr a.tokenId, recipient.getD buyer)] := by
    simp [soldTo, saleEvent, Event.get_mk]
  cases h with
  | mk pay es h =>
    rw [soldTo_append, hs]
    cases h with
    | royalty => rw [soldTo_other (by simp [royaltyEvent])]; rfl
    | plain => rfl

theorem royalty_sold {ctx : Ctx} {s : State} {a : Ask} {price : Nat} {buyer : Addr} {finder recipient : Option Addr}
    {sale : List Msg} {es : List Event} (h : SoldE ctx s a price buyer finder recipient sale es) :
    (royaltySends es).Sublist (sends sale) ∧
    royaltySends es = (match (ctx.q.collInfo a.collection).bind (fun i => i.royalty) with
      | some r => if r.share = 0 then [] else [Spec.pay r.recipient (price * r.share / 10^18)]
      | none => []) := by
  have e1 : ∀ r : Addr, royaltySends [saleEvent a price buyer r] = [] := fun r => royaltySends_other (by simp [saleEvent])
  cases h with
  | mk pay es h =>
    rw [royaltySends_append, e1, List.append_nil]
    cases h with
    | royalty info roy n ff z hinfo hroy hpos =>
      have e2 : royaltySends [royaltyEvent a.collection (price * roy.share / ONE) roy.recipient] =
          [Spec.pay roy.recipient (price * roy.share / 10^18)] := by
        simp [royaltySends, royaltyEvent, coin, Event.get_mk, readCoin_native (c := ⟨NATIVE, _⟩) rfl, Spec.pay, ustars_eq, ONE]
      rw [e2]
      constructor
      · apply List.singleton_sublist.mpr
        simp [sends, Spec.pay, ustars_eq, ONE]
      · simp [hinfo, hroy, hpos]
    | plain info n ff z hinfo hroy =>
      refine ⟨List.nil_sublist _, ?_⟩
      simp only [hinfo, Option.bind_some]
      cases hr : info.royalty with
      | none => rfl
      | some r => simp [hroy r hr, royaltySends]

/-- The tokens handed over by a call are exactly those its `finalize-sale` events name, each to the recipient named. -/
theorem C112_handed {ctx : Ctx} {sender : Addr} {funds : List Coin} {m : Exec} {s s' : State} {msgs : List Msg}
    {evs : List Event} (h : executeE p ctx sender funds m s = .ok (s', msgs, evs)) : handed msgs = soldTo evs := by
  have he := executeE_eff h
  cases he with
  | setAsk ty coll tok price recipient reserveFor fee expires a burn hden hb ha =>
    rw [handed_append, handed_burn hb, soldTo_other (by simp [setAskEvent])]; exact handed_hooks _ _
  | bidSaved _ b0 price bid hm hfunds hbid =>
    rw [handed_append, handed_refund, soldTo_other (by simp [setBidEvent])]; exact handed_hooks _ _
  | bought _ b0 price bid ask sale es hm hfunds hbid ha hprice hsale =>
    rw [handed_append, handed_refund, soldTo_append, handed_sold hsale, soldTo_sold hsale,
      soldTo_other (by simp [setBidEvent])]
    rfl
  | acceptBid coll tok bidder finder bid sale es hb hsale =>
    rw [soldTo_append, handed_sold hsale, soldTo_sold hsale, soldTo_other (by simp [acceptBidEvent])]
    rfl
  | acceptCBid coll tok bidder finder bid sale es hb hsale =>
    rw [soldTo_append, handed_sold hsale, soldTo_sold hsale, soldTo_other (by simp [acceptCBidEvent])]
    rfl
  | setCBid coll expires fee price bid hfunds hbid =>
    rw [handed_append, soldTo_other (by simp [setCBidEvent])]
    split <;> exact handed_hooks _ _
  | removeAsk => rw [soldTo_other (by simp [removeAskEvent])]; exact handed_hooks _ _
  | updatePrice => rw [soldTo_other (by simp [updateAskEvent])]; exact handed_hooks _ _
  | removeBid => rw [soldTo_other (by simp [removeBidEvent])]; exact handed_hooks _ _
  | rejectBid => rw [soldTo_other (by simp [rejectBidEvent])]; exact handed_hooks _ _
  | removeCBid => rw [soldTo_other (by simp [removeCBidEvent])]; exact handed_hooks _ _
  | syncAsk => rw [soldTo_other (by simp [syncEvent])]; exact handed_hooks _ _
  | staleAsk => rw [soldTo_other (by simp [staleAskEvent])]; exact handed_hooks _ _
  | staleBid => rw [soldTo_other (by simp [staleBidEvent])]; exact handed_hooks _ _
  | staleCBid => rw [soldTo_other (by simp [staleCBidEvent])]; exact handed_hooks _ _

theorem announce_sold {ctx : Ctx} {s : State} {a : Ask} {price : Nat} {buyer : Addr} {finder recipient : Option Addr}
    {sale : List Msg} {es : List Event} (h : SoldE ctx s a price buyer finder recipient sale es) {T : Terms}
    (h1 : (a.collection, a.tokenId) = (T.coll, T.tok)) (h2 : a.seller = T.seller) (h3 : buyer = T.buyer)
    (h4 : price = T.price) (h5 : recipient.getD buyer = T.recipient) : ∃ e ∈ es, Announces T e := by
  cases h with
  | mk pay es h =>
    refine ⟨_, List.mem_append_right _ (List.mem_singleton.mpr rfl), rfl, ?_, ?_, ?_, ?_, ?_⟩ <;>
      simp [saleEvent, tokenNamed, num, Event.get_mk, readNat_tokStr, readNat_showNat, h1, h2, h3, h4, ← h5]

/-- A call that hands over a token announces the sale on the terms of the listing or of the accepted bid, and announces
exactly the royalty that is due: `price * share` rounded down, to the recipient the collection names. -/
theorem C112_terms {me : Addr} {ctx : Ctx} {sender : Addr} {funds : List Coin} {m : Exec} {s s' : State} {msgs : List Msg}
    {evs : List Event} (hr : Reach p me s) (h : executeE p ctx sender funds m s = .ok (s', msgs, evs))
    (hh : handed msgs ≠ []) :
    ∃ T, terms s sender m = some T ∧ (∃ e ∈ evs, Announces T e) ∧
      royaltySends evs = (match (ctx.q.collInfo T.coll).bind (fun i => i.royalty) with
        | some r => if r.share = 0 then [] else [Spec.pay r.recipient (T.price * r.share / 10^18)]
        | none => []) := by
  have hw := hr.wf
  have he := executeE_eff h
  cases he with
  | bought _ b0 price bid ask sale es hm hfunds hbid ha hprice hsale =>
    have hkey : (ask.collection, ask.tokenId) = (b0.coll, b0.tok) := (hw.asks _ _ ha).key
    refine ⟨⟨b0.coll, b0.tok, ask.price, ask.seller, ask.fundsRecipient.getD ask.seller, sender,
      b0.recipient.getD sender, b0.finder, ask.findersFee⟩, ?_, ?_, ?_⟩
    · rw [terms_bid hm, ha]; rfl
    · obtain ⟨e, h1, h2⟩ := announce_sold (T := ⟨b0.coll, b0.tok, ask.price, ask.seller,
        ask.fundsRecipient.getD ask.seller, sender, b0.recipient.getD sender, b0.finder, ask.findersFee⟩)
        hsale hkey rfl rfl hprice.symm rfl
      exact ⟨e, List.mem_append_left _ h1, h2⟩
    · rw [royaltySends_append, (royalty_sold hsale).2, royaltySends_other (by simp [setBidEvent]), List.append_nil, hprice,
        (Prod.mk.inj hkey).1]
  | acceptBid coll tok bidder finder bid sale es hb hsale =>
    refine ⟨⟨coll, tok, bid.price, sender, sender, bidder, bidder, finder, bid.findersFee⟩, ?_, ?_, ?_⟩
    · simp only [terms, hb, Option.map_some]
    · obtain ⟨e, h1, h2⟩ := announce_sold (T := ⟨coll, tok, bid.price, sender, sender, bidder, bidder, finder, bid.findersFee⟩)
        hsale rfl rfl rfl rfl rfl
      exact ⟨e, List.mem_append_left _ h1, h2⟩
    · rw [royaltySends_append, (royalty_sold hsale).2, royaltySends_other (by simp [acceptBidEvent]), List.append_nil]
      rfl
  | acceptCBid coll tok bidder finder bid sale es hb hsale =>
    refine ⟨⟨coll, tok, bid.price, sender, sender, bidder, bidder, finder, bid.findersFee⟩, ?_, ?_, ?_⟩
    · simp only [terms, hb, Option.map_some]
    · obtain ⟨e, h1, h2⟩ := announce_sold (T := ⟨coll, tok, bid.price, sender, sender, bidder, bidder, finder, bid.findersFee⟩)
        hsale rfl rfl rfl rfl rfl
      exact ⟨e, List.mem_append_left _ h1, h2⟩
    · rw [royaltySends_append, (royalty_sold hsale).2, royaltySends_other (by simp [acceptCBidEvent]), List.append_nil]
      rfl
  | setAsk ty coll tok price recipient reserveFor fee expires a burn hden hb ha =>
    exact absurd (by rw [handed_append, handed_burn hb]; exact handed_hooks _ _) hh
  | bidSaved _ b0 price bid hm hfunds hbid =>
    exact absurd (by rw [handed_append, handed_refund]; exact handed_hooks _ _) hh
  | setCBid coll expires fee price bid hfunds hbid =>
    refine absurd ?_ hh
    rw [handed_append]
    split <;> exact handed_hooks _ _
  | _ => exact absurd (handed_hooks _ _) hh

/-! ### C113: money follows from the events -/

theorem sends_append (a b : List Msg) : sends (a ++ b) = sends a ++ sends b := List.filter_append ..
theorem sends_hooks (hs : List Addr) (f : Addr → HookInfo) : sends (hs.map (fun h => .hook h (f h))) = [] := by
  induction hs with
  | nil => rfl
  | cons h hs ih => exact ih
theorem sends_cons (a : Addr) (cs : List Coin) (l : List Msg) : sends (.send a cs :: l) = .send a cs :: sends l := rfl
theorem sends_burn : ∀ {l : List Msg}, (∀ m ∈ l, ∃ c, m = .fairBurn c) → sends l = []
  | [], _ => rfl
  | m :: l, h => by
    obtain ⟨c, rfl⟩ := h m List.mem_cons_self
    exact sends_burn (l := l) (fun x hx => h x (List.mem_cons_of_mem _ hx))

theorem owed_sold {ctx : Ctx} {s : State} {a : Ask} {price : Nat} {buyer : Addr} {finder recipient : Option Addr}
    {sale : List Msg} {es : List Event} (h : SoldE ctx s a price buyer finder recipient sale es) (b : Book) :
    es.flatMap (owed b) = [] := by
  cases h with
  | mk pay es h =>
    cases h with
    | royalty => simp [owed, saleEvent, royaltyEvent]
    | plain => simp [owed, saleEvent]

/-- An observer who knows the state before a call can tell from the events who is paid back what: the sends of the response
are the refunds and rewards that follow from the events, and after them those of a sale, if there is one, among which are the
announced royalties. -/
theorem C113_refunds {b : Book} {me : Addr} {ctx : Ctx} {sender : Addr} {funds : List Coin} {m : Exec} {s s' : State}
    {msgs : List Msg} {evs : List Event} (hr : Reach p me s) (hk : Knows b s)
    (h : executeE p ctx sender funds m s = .ok (s', msgs, evs)) :
    ∃ sale, sends msgs = evs.flatMap (owed b) ++ sale ∧ (hasSale evs = false → sale = []) ∧
      (royaltySends evs).Sublist sale := by
  have hw := hr.wf
  have he := executeE_eff h
  have hb : ∀ k x, s.bids.get? k = some x → b.bids k = some (bidView x) := by intro k x hx; rw [hk.bids, hx]; rfl
  have hc : ∀ k x, s.cbids.get? k = some x → b.cbids k = some (cbidView x) := by intro k x hx; rw [hk.cbids, hx]; rfl
  -- the refund of a replaced bid
  have hold : ∀ (ty : SaleType) (x : Bid), owed b (setBidEvent ty x) =
      refund ((s.bids.get? (x.collection, x.tokenId, x.bidder)).map Bid.price) x.bidder := by
    intro ty x
    have e := hk.bids (x.collection, x.tokenId, x.bidder)
    simp only [owed, setBidEvent, bidNamed, tokenNamed, num, Event.get_mk]
    simp [readNat_tokStr, e]
    cases s.bids.get? (x.collection, x.tokenId, x.bidder) with
    | none => rfl
    | some y => simp [refund, bidView, Spec.pay, ustars_eq]
  cases he with
  | setAsk ty coll tok price recipient reserveFor fee expires a burn hden hb' ha =>
    refine ⟨[], ?_, fun _ => rfl, ?_⟩
    · rw [sends_append, sends_burn hb']; simp [askHook, sends_hooks, owed, setAskEvent]
    · simp [royaltySends, setAskEvent]
  | removeAsk => exact ⟨[], by simp [askHook, sends_hooks, owed, removeAskEvent], fun _ => rfl, by simp [royaltySends, removeAskEvent]⟩
  | updatePrice => exact ⟨[], by simp [askHook, sends_hooks, owed, updateAskEvent], fun _ => rfl, by simp [royaltySends, updateAskEvent]⟩
  | syncAsk => exact ⟨[], by simp [askHook, sends_hooks, owed, syncEvent], fun _ => rfl, by simp [royaltySends, syncEvent]⟩
  | staleAsk => exact ⟨[], by simp [askHook, sends_hooks, owed, staleAskEvent], fun _ => rfl, by simp [royaltySends, staleAskEvent]⟩
  | bidSaved _ b0 price bid hm hfunds hbid =>
    refine ⟨[], ?_, fun _ => rfl, by simp [royaltySends, setBidEvent]⟩
    subst hbid
    simp only [List.flatMap_cons, List.flatMap_nil, List.append_nil, hold, sends_append, bidHook, sends_hooks]
    cases s.bids.get? (b0.coll, b0.tok, sender) <;> rfl
  | bought _ b0 price bid ask sale es hm hfunds hbid ha hprice hsale =>
    subst hbid
    refine ⟨sends sale, ?_, ?_, ?_⟩
    · rw [List.flatMap_append, owed_sold hsale]
      simp only [List.flatMap_cons, List.flatMap_nil, List.append_nil, List.nil_append, hold, sends_append]
      cases s.bids.get? (b0.coll, b0.tok, sender) <;> rfl
    · rw [hasSale_append, hasSale_sold hsale]; intro h; cases h
    · rw [royaltySends_append, royaltySends_other (by simp [setBidEvent]), List.append_nil]
      exact (royalty_sold hsale).1
  | acceptBid coll tok bidder finder bid sale es hb' hsale =>
    refine ⟨sends msgs, ?_, ?_, ?_⟩
    · rw [List.flatMap_append, owed_sold hsale]; simp [owed, acceptBidEvent]
    · rw [hasSale_append, hasSale_sold hsale]; intro h; cases h
    · rw [royaltySends_append, royaltySends_other (by simp [acceptBidEvent]), List.append_nil]
      exact (royalty_sold hsale).1
  | acceptCBid coll tok bidder finder bid sale es hb' hsale =>
    refine ⟨sends msgs, ?_, ?_, ?_⟩
    · rw [List.flatMap_append, owed_sold hsale]; simp [owed, acceptCBidEvent]
    · rw [hasSale_append, hasSale_sold hsale]; intro h; cases h
    · rw [royaltySends_append, royaltySends_other (by simp [acceptCBidEvent]), List.append_nil]
      exact (royalty_sold hsale).1
  | removeBid coll tok bid hb' =>
    have hkey := (hw.bids _ _ hb').key
    have e : bid.bidder = sender := by cases hkey; rfl
    refine ⟨[], ?_, fun _ => rfl, by simp [royaltySends, removeBidEvent]⟩
    rw [sends_cons]
    simp [bidHook, sends_hooks, owed, removeBidEvent, bidNamed, tokenNamed, num, Event.get_mk, readNat_tokStr, hb _ _ hb', bidView,
      Spec.pay, ustars_eq, e]
  | rejectBid coll tok bidder bid hb' =>
    refine ⟨[], ?_, fun _ => rfl, by simp [royaltySends, rejectBidEvent]⟩
    rw [sends_cons]
    simp [bidHook, sends_hooks, owed, rejectBidEvent, bidNamed, tokenNamed, num, Event.get_mk, readNat_tokStr, hb _ _ hb', bidView,
      Spec.pay, ustars_eq]
  | setCBid coll expires fee price bid hfunds hbid =>
    subst hbid
    refine ⟨[], ?_, fun _ => rfl, by simp [royaltySends, setCBidEvent]⟩
    rw [sends_append]
    have e := hk.cbids (coll, sender)
    simp only [cbidHook, sends_hooks, List.append_nil, List.flatMap_cons, List.flatMap_nil]
    cases hx : s.cbids.get? (coll, sender) with
    | none =>
      rw [hx] at e
      simp [owed, setCBidEvent, cbidNamed, Event.get_mk, e, sends]
    | some y =>
      have hkey := (hw.cbids _ _ hx).key
      have e' : y.bidder = sender := by cases hkey; rfl
      rw [hx] at e
      simp [owed, setCBidEvent, cbidNamed, Event.get_mk, e, sends, cbidView, Spec.pay, ustars_eq, e']
  | removeCBid coll bid hb' =>
    have hkey := (hw.cbids _ _ hb').key
    have e : bid.bidder = sender := by cases hkey; rfl
    refine ⟨[], ?_, fun _ => rfl, by simp [royaltySends, removeCBidEvent]⟩
    rw [sends_cons]
    simp [cbidHook, sends_hooks, owed, removeCBidEvent, cbidNamed, Event.get_mk, hc _ _ hb', cbidView, Spec.pay, ustars_eq, e]
  | staleBid coll tok bidder bid r hb' hle =>
    have hkey := (hw.bids _ _ hb').key
    have e : bid.bidder = bidder := by cases hkey; rfl
    refine ⟨[], ?_, fun _ => rfl, by simp [royaltySends, staleBidEvent]⟩
    rw [sends_cons, sends_cons]
    simp [bidHook, sends_hooks, owed, staleBidEvent, bidNamed, tokenNamed, num, Event.get_mk, readNat_tokStr, readNat_showNat,
      hb _ _ hb', bidView, Spec.pay, ustars_eq, e]
  | staleCBid coll bidder bid r hb' hle =>
    have hkey := (hw.cbids _ _ hb').key
    have e : bid.bidder = bidder := by cases hkey; rfl
    refine ⟨[], ?_, fun _ => rfl, by simp [royaltySends, staleCBidEvent]⟩
    rw [sends_cons, sends_cons]
    simp [cbidHook, sends_hooks, owed, staleCBidEvent, cbidNamed, num, Event.get_mk, readNat_showNat, hc _ _ hb', cbidView,
      Spec.pay, ustars_eq, e]

namespace Sample

/-- A call, a hook of the chain, or the notice that a hook failed. -/
inductive Act where
  | call (sender : Addr) (funds : List Coin) (m : Exec)
  | sudo (m : Sudo)
  | failed (id : Nat) (error : Bytes)

def act (c : Ctx) (a : Act) (s : State) : OutE :=
  match a with
  | .call sender funds m => if sender = self then .error .std else executeE P c sender funds m s
  | .sudo m => sudoE P c m s
  | .failed id e => replyE id e >>= fun evs => .ok (s, [], evs)

/-- Run these one after the other, collecting the events; fails if one fails. -/
def play : List (Ctx × Act) → State × List (List Event) → Option (State × List (List Event))
  | [], x => some x
  | (c, a) :: cs, (s, log) =>
    if c.self = self then
      match act c a s with
      | .ok (s', _, evs) => play cs (s', log ++ [evs])
      | .error _ => none
    else none

theorem play_logged {s0 : State} : ∀ {cs : List (Ctx × Act)} {x y : State × List (List Event)},
    Logged P self s0 x.1 x.2 → play cs x = some y → Logged P self s0 y.1 y.2
  | [], x, y, h, hp => by cases hp; exact h
  | (c, a) :: cs, (s, log), y, h, hp => by
    unfold play at hp
    split at hp
    case isFalse => cases hp
    case isTrue hc =>
      split at hp
      case h_2 => cases hp
      case h_1 s' ms evs he =>
        refine play_logged ?_ hp
        cases a with
        | call sender funds m =>
          simp only [act] at he
          split at he
          · cases he
          case isFalse hne => exact .call h hc hne he
        | sudo m => exact .sudo h hc he
        | failed id e =>
          simp only [act, bind_ok] at he
          obtain ⟨evs', h1, h2⟩ := he
          cases h2
          exact .reply h h1

/-- The run of `Sample.lean`, with a hook that fails, a new operator, and more bids. -/
def script : List (Ctx × Act) :=
  [(ctx 1000, .sudo (.addAskHook hk)), (ctx 1000, .sudo (.addBidHook hk)), (ctx 1000, .call alice (us 3) askMsg),
   (ctx 1000, .failed 1 [33]), (ctx 1000, .call bob (us 60) bidMsg),
   (ctx 1000, .call carol (us 50) (.setCollectionBid coll (3000 * NSs) none)), (ctx 1001, .call bob (us 70) bidMsg),
   (ctx 1001, .call alice [] (.updateAskPrice coll 1 ⟨NATIVE, 100⟩)), (ctx 1001, .sudo (.addOperator bob)),
   (ctx 1002, .call carol (us 100) buyMsg), (ctx 1003, .call alice (us 80) (.setBid free 2 (3000 * NSs) .fixedPrice none none))]

/-- Listing and purchase. -/
def short : List (Ctx × Act) := [(ctx 1000, .call alice (us 3) askMsg), (ctx 1002, .call carol (us 101) buyMsg)]

def res (cs : List (Ctx × Act)) : State × List (List Event) := (play cs (s0, [])).getD (s0, [])

theorem res_logged {cs : List (Ctx × Act)} (h : (play cs (s0, [])).isSome = true) :
    Logged P self s0 (res cs).1 (res cs).2 := by
  obtain ⟨y, hy⟩ := Option.isSome_iff_exists.mp h
  have := play_logged (s0 := s0) .start hy
  unfold res
  rw [hy]
  exact this

/-- The event by event observer believes that the buyer's money is still deposited as a bid. -/
theorem naive_wrong : ((Book.start s0.params.operators s0.saleHooks).naive (res short).2).map
      (fun b => (b.bids (coll, 1, carol)).map (fun v => v.price)) = some (some 101) ∧
    ((res short).1.bids.get? (coll, 1, carol)).isNone = true := by decide +kernel

/-- The response by response observer is right about all orders of the longer run. -/
example : ((Book.start s0.params.operators s0.saleHooks).hear (res script).2).map (fun b =>
      [(b.bids (coll, 1, bob)).map (·.price), (b.bids (coll, 1, carol)).map (·.price),
       (b.bids (free, 2, alice)).map (·.price), (b.cbids (coll, carol)).map (·.price), (b.asks (coll, 1)).map (·.price)]) =
    some [some 70, none, some 80, some 50, none] := by decide +kernel
example : ((Book.start s0.params.operators s0.saleHooks).hear (res script).2).map (fun b => [b.operators, b.askHooks]) =
    some [[oper, bob], [hk]] := by decide +kernel
example : ∃ b, (Book.start s0.params.operators s0.saleHooks).hear (res script).2 = some b ∧ Knows b (res script).1 :=
  C111_partial init0 (res_logged (by decide +kernel))

/-- Listing leaves an order known by its price, seller and expiry. -/
example : ((Book.start s0.params.operators s0.saleHooks).hear (res (script.take 3)).2).map (fun b =>
    (b.asks (coll, 1)).map (fun a => (a.seller, a.price, a.expires, a.active))) =
      some (some (alice, 101, 2000 * NSs, true)) := by decide +kernel

/-- Events of a sale: the royalty, the sale, then the bid that made it. -/
example : (res short).2.map (fun r => r.map (fun e => e.ty)) = [["set-ask"], ["royalty-payout", "finalize-sale", "set-bid"]] := by
  decide +kernel

/-- Parameters are not told: two changes of different parameters emit the same event. -/
example : sudoEvent (.updateParams { tradingFeeBps := some 1 }) = sudoEvent (.updateParams { minPrice := some 7 }) := rfl

/-- The hypotheses of `C112` and `C113` are met by the purchase at the end of `Sample.lean`. -/
def evs (c : Ctx) (sender : Addr) (funds : List Coin) (m : Exec) (s : State) : List Event :=
  match executeE P c sender funds m s with
  | .ok r => r.2.2
  | .error _ => []
theorem erun_eq {c : Ctx} {sender : Addr} {funds : List Coin} {m : Exec} {s : State} (h : ok c sender funds m s = true) :
    executeE P c sender funds m s =
      .ok ((run c sender funds m s).1, (run c sender funds m s).2, evs c sender funds m s) := by
  obtain ⟨es, he⟩ := executeE_of (p := P) (run_eq h)
  unfold evs
  rw [he]
  rfl
def evs7 : List Event := evs (ctx 1002) carol (us 101) buyMsg s6
theorem buy7 : executeE P (ctx 1002) carol (us 101) buyMsg s6 =
    .ok (s7, (run (ctx 1002) carol (us 101) buyMsg s6).2, evs7) := erun_eq (by decide +kernel)
example : soldTo evs7 = [(coll, [49], carol)] := by
  rw [← C112_handed buy7]
  decide +kernel
example : soldTo evs7 = [(coll, [49], carol)] ∧ royaltySends evs7 = [.send artist (us 5)] := by decide +kernel
example : ∃ T, terms s6 carol buyMsg = some T ∧ T.price = 101 ∧ T.seller = alice ∧ ∃ e ∈ evs7, Announces T e := by
  obtain ⟨T, h1, h2, _⟩ := C112_terms r6 buy7 (by decide +kernel)
  have e : (terms s6 carol buyMsg).map (fun T => (T.price, T.seller)) = some (101, alice) := by decide +kernel
  rw [h1] at e
  have e' := Prod.mk.inj (Option.some.inj e)
  exact ⟨T, h1, e'.1, e'.2, h2⟩

/-- What an observer knows in `s6`. -/
def b6 : Book := ⟨fun k => (s6.asks.get? k).map askView, fun k => (s6.bids.get? k).map bidView,
  fun k => (s6.cbids.get? k).map cbidView, s6.params.operators, s6.askHooks, s6.bidHooks, s6.saleHooks⟩
theorem k6 : Knows b6 s6 := ⟨fun _ => rfl, fun _ => rfl, fun _ => rfl, rfl, rfl, rfl, rfl⟩
example : ∃ sale, sends (run (ctx 1002) carol (us 101) buyMsg s6).2 = evs7.flatMap (owed b6) ++ sale := by
  obtain ⟨sale, h1, _⟩ := C113_refunds r6 k6 buy7
  exact ⟨sale, h1⟩
/-- Bob takes the bid of 70 back: the event tells that 70 are paid to bob. -/
example : (match executeE P (ctx 1002) bob [] (.removeBid coll 1) s6 with
    | .ok r => some (sends r.2.1, r.2.2.flatMap (owed b6))
    | .error _ => none) = some ([.send bob (us 70)], [.send bob (us 70)]) := by decide +kernel

end Sample

theorem C111_violated : ¬ C111_statement := by
  intro h
  obtain ⟨b, h1, h2⟩ := h Sample.P Sample.self Sample.ini Sample.s0 _ _ Sample.init0
    (Sample.res_logged (cs := Sample.short) (by decide +kernel))
  have h3 := Sample.naive_wrong
  rw [h1] at h3
  have h4 := h2.bids (Sample.coll, 1, Sample.carol)
  rw [Option.isNone_iff_eq_none.mp h3.2] at h4
  have h5 : (b.bids (Sample.coll, 1, Sample.carol)).map (fun v => v.price) = some 101 := Option.some.inj h3.1
  rw [h4] at h5
  cases h5

end
end Verif.V1

/-
C143: the marketplace's ids need no more of the hash than that it tells apart the strings hashed so far.

The other properties that depend on ids being distinct are stated for a hash without any collision (`HashInj`). A hash
of fixed length such as the BLAKE2s of helpers.rs 23-29 has collisions; what one relies on is that none is ever met. Here
this is what is assumed: a history hashes finitely many strings, and if the hash tells these apart the history is one of a
marketplace with a hash without collisions, so that every property of the latter holds for it.
-/
import Verif.V2.Hash
import Verif.V2.PropsOrders

namespace Verif.V2
open Verif Spec

variable {p : Params} {me : Addr} {honest : Addr → Prop} {G : State → Prop}

/-! ### Histories that hash only strings of a list -/

/-- The call hashes only strings of `U`. -/
def Spec.Within (U : List Bytes) (height : Nat) (s : State) (m : Exec) : Prop := ∀ x ∈ hashed height s m, x ∈ U

instance (U : List Bytes) (height : Nat) (s : State) (m : Exec) : Decidable (Within U height s m) := by
  unfold Within; infer_instance

/-- As `Reach`, by calls that hash only strings of `U`. -/
inductive Spec.ReachIn (U : List Bytes) (p : Params) (self : Addr) (G : State → Prop) : State → Prop where
  | init {c : Config} {s : State} (h : instantiate p c = .ok s) : ReachIn U p self G s
  | call {s s' : State} {ctx : Ctx} {sender : Addr} {funds : List Coin} {m : Exec} {msgs : List Msg}
      (hr : ReachIn U p self G s) (hg : G s) (hself : ctx.self = self) (hne : sender ≠ self)
      (hU : Within U ctx.height s m)
      (h : execute p ctx sender funds m s = .ok (s', msgs)) : ReachIn U p self G s'

/-- As `Diary`, by calls that hash only strings of `U`. -/
inductive Spec.DiaryIn (U : List Bytes) (p : Params) (self : Addr) (s0 : State) : List Act → State → Prop where
  | nil : DiaryIn U p self s0 [] s0
  | call {l : List Act} {s s' : State} {ctx : Ctx} {sender : Addr} {funds : List Coin} {m : Exec} {msgs : List Msg}
      (hd : DiaryIn U p self s0 l s) (hself : ctx.self = self) (hne : sender ≠ self)
      (hU : Within U ctx.height s m)
      (h : execute p ctx sender funds m s = .ok (s', msgs)) :
      DiaryIn U p self s0 (⟨ctx.q, s, sender, funds, m, s', msgs⟩ :: l) s'

/-- The chain machine with the marketplace, without the calls that would hash anything else. -/
def Spec.sysIn (U : List Bytes) (p : Params) (self : Addr) (honest : Addr → Prop) : Sys State Exec Empty :=
  { sys p self honest with
    exec := fun ctx sender funds m s =>
      if Within U ctx.height s m then execute p ctx sender funds m s else .error .internal }

theorem within_mono {U V : List Bytes} (hUV : ∀ x ∈ U, x ∈ V) {height : Nat} {s : State} {m : Exec}
    (h : Within U height s m) : Within V height s m := fun x hx => hUV x (h x hx)

theorem reachIn_mono {U V : List Bytes} (hUV : ∀ x ∈ U, x ∈ V) {s : State} (h : ReachIn U p me G s) :
    ReachIn V p me G s := by
  induction h with
  | init h => exact .init h
  | call _ hg hself hne hU h ih => exact .call ih hg hself hne (within_mono hUV hU) h

theorem diaryIn_mono {U V : List Bytes} (hUV : ∀ x ∈ U, x ∈ V) {s0 s : State} {l : List Act}
    (h : DiaryIn U p me s0 l s) : DiaryIn V p me s0 l s := by
  induction h with
  | nil => exact .nil
  | call _ hself hne hU h ih => exact .call ih hself hne (within_mono hUV hU) h

theorem sysIn_exec {U : List Bytes} {ctx : Ctx} {sender : Addr} {funds : List Coin} {m : Exec} {s : State}
    {r : State × List Msg} : (sysIn U p me honest).exec ctx sender funds m s = .ok r ↔
      Within U ctx.height s m ∧ execute p ctx sender funds m s = .ok r := by
  show (if Within U ctx.height s m then execute p ctx sender funds m s else .error .internal) = .ok r ↔ _
  split
  · next h => exact ⟨fun e => ⟨h, e⟩, fun e => e.2⟩
  · next h => exact ⟨(fun e => nomatch e), fun e => absurd e.1 h⟩

theorem histIn_mono {U V : List Bytes} (hUV : ∀ x ∈ U, x ∈ V) {a b : World State × List Msg}
    {es : List (Entry Exec Empty)} (h : (sysIn U p me honest).Hist a es b) : (sysIn V p me honest).Hist a es b :=
  h.widen (e := (sysIn V p me honest).exec) (fun _ _ _ _ _ _ hx =>
    sysIn_exec.2 ⟨within_mono hUV (sysIn_exec.1 hx).1, (sysIn_exec.1 hx).2⟩)

/-! ### Every history hashes finitely many strings -/

/-- Every reachable state is reached hashing only strings of some list. -/
theorem C143_reach_finite {s : State} (h : Reach p me G s) : ∃ U, ReachIn U p me G s := by
  induction h with
  | init h => exact ⟨[], .init h⟩
  | @call s s' ctx sender funds m msgs _ hg hself hne h ih =>
    obtain ⟨U, hU⟩ := ih
    exact ⟨hashed ctx.height s m ++ U, .call (reachIn_mono (fun x hx => List.mem_append_right _ hx) hU) hg hself hne
      (fun x hx => List.mem_append_left _ hx) h⟩

/-- The same for histories with their calls. -/
theorem C143_diary_finite {s0 s : State} {l : List Act} (h : Diary p me s0 l s) : ∃ U, DiaryIn U p me s0 l s := by
  induction h with
  | nil => exact ⟨[], .nil⟩
  | @call l s s' ctx sender funds m msgs _ hself hne h ih =>
    obtain ⟨U, hU⟩ := ih
    exact ⟨hashed ctx.height s m ++ U, .call (diaryIn_mono (fun x hx => List.mem_append_right _ hx) hU) hself hne
      (fun x hx => List.mem_append_left _ hx) h⟩

/-- The same for histories of the whole chain, with nested calls. -/
theorem C143_hist_finite {a b : World State × List Msg} {es : List (Entry Exec Empty)}
    (h : (sys p me honest).Hist a es b) : ∃ U, (sysIn U p me honest).Hist a es b := by
  induction h with
  | nil => exact ⟨[], .nil⟩
  | cons _ hd ih =>
    obtain ⟨U, hU⟩ := ih
    cases hd with
    | call w stack sender funds m q s' msgs hctl hne hfunds hq hex =>
      refine ⟨hashed w.height w.st m ++ U, .cons (histIn_mono (fun x hx => List.mem_append_right _ hx) hU) ?_⟩
      exact .call w stack sender funds m q s' msgs hctl hne hfunds hq
        (sysIn_exec.2 ⟨fun x hx => List.mem_append_left _ hx, hex⟩)
    | sudo w m q s' msgs hq hex => exact nomatch m
    | env w w' stack hctl h => exact ⟨U, .cons hU (.env w w' stack hctl h)⟩
    | block w t h ht hh => exact ⟨U, .cons hU (.block w t h ht hh)⟩
    | send w to cs rest hne hpos hbal => exact ⟨U, .cons hU (.send w to cs rest hne hpos hbal)⟩
    | fairBurn w cs rest hbal => exact ⟨U, .cons hU (.fairBurn w cs rest hbal)⟩
    | nft w c t to rest o hh ho hauth => exact ⟨U, .cons hU (.nft w c t to rest o hh ho hauth)⟩
    | initRoyalty w r c rest => exact ⟨U, .cons hU (.initRoyalty w r c rest)⟩
    | ret w m rest hf => exact ⟨U, .cons hU (.ret w m rest hf)⟩

/-! ### The same history with a hash without collisions -/

/-- A marketplace that is the same but for a hash without collisions, and behaves the same as long as only strings of
`U` are hashed. -/
structure Spec.Ideal (p p' : Params) (U : List Bytes) : Prop where
  inj : HashInj p'
  valid : p'.valid = p.valid
  defLimit : p'.defLimit = p.defLimit
  maxLimit : p'.maxLimit = p.maxLimit
  agree : ∀ x ∈ U, p'.hash x = p.hash x
  init : ∀ c, instantiate p' c = instantiate p c
  call : ∀ (ctx : Ctx) (sender : Addr) (funds : List Coin) (m : Exec) (s : State), Within U ctx.height s m →
    execute p' ctx sender funds m s = execute p ctx sender funds m s
  reach : ∀ me G s, ReachIn U p me G s → Reach p' me G s
  diary : ∀ me s0 l s, DiaryIn U p me s0 l s → Diary p' me s0 l s
  hist : ∀ me honest a es b, (sysIn U p me honest).Hist a es b → (sys p' me honest).Hist a es b

/-- If the hash tells the strings of a list apart, there is such a marketplace. -/
theorem C143_ideal {U : List Bytes} (h : NoClash p U) : ∃ p', Ideal p p' U := by
  have call : ∀ (ctx : Ctx) (sender : Addr) (funds : List Coin) (m : Exec) (s : State), Within U ctx.height s m →
      execute (withHash p (extend p.hash U)) ctx sender funds m s = execute p ctx sender funds m s :=
    fun ctx sender funds m s hU => execute_agree (fun x hx => extend_mem (hU x hx))
  refine ⟨withHash p (extend p.hash U), extend_inj h, rfl, rfl, rfl, fun x hx => extend_mem hx, fun c => rfl, call, ?_, ?_, ?_⟩
  · intro me G s hr
    induction hr with
    | init h => exact .init h
    | call _ hg hself hne hU h ih => exact .call ih hg hself hne ((call _ _ _ _ _ hU).trans h)
  · intro me s0 l s hd
    induction hd with
    | nil => exact .nil
    | call _ hself hne hU h ih => exact .call ih hself hne ((call _ _ _ _ _ hU).trans h)
  · intro me honest a es b hh
    exact hh.widen (e := execute (withHash p (extend p.hash U))) (fun _ _ _ _ _ _ hx =>
      (call _ _ _ _ _ (sysIn_exec.1 hx).1).trans (sysIn_exec.1 hx).2)

variable {U : List Bytes}

theorem Spec.Ideal.lim {p' : Params} (I : Ideal p p' U) (h : 1 ≤ p.maxLimit) : 1 ≤ p'.maxLimit := I.maxLimit ▸ h
theorem Spec.Ideal.prefixFree {p' : Params} (I : Ideal p p' U) (h : PrefixFree p) : PrefixFree p' := by
  unfold PrefixFree; rw [I.valid]; exact h
theorem Spec.Ideal.noSlash {p' : Params} (I : Ideal p p' U) (h : NoSlash p) : NoSlash p' := by
  unfold NoSlash; rw [I.valid]; exact h

/-! ### What follows for a hash that only tells apart what has been hashed -/

/-- Every statement about reachable states that holds for hashes without collisions. -/
theorem C143_states {Q : State → Prop} (hQ : ∀ p', HashInj p' → p'.valid = p.valid → p'.maxLimit = p.maxLimit →
      p'.defLimit = p.defLimit → ∀ s, Reach p' me G s → Q s)
    (hU : NoClash p U) {s : State} (hr : ReachIn U p me G s) : Q s := by
  obtain ⟨p', I⟩ := C143_ideal hU
  exact hQ p' I.inj I.valid I.maxLimit I.defLimit s (I.reach _ _ _ hr)

/-- Every statement about calls that holds for hashes without collisions. -/
theorem C143_calls {Q : Ctx → Addr → List Coin → Exec → State → State → List Msg → Prop}
    (hQ : ∀ p', HashInj p' → p'.valid = p.valid → p'.maxLimit = p.maxLimit → p'.defLimit = p.defLimit →
      ∀ ctx sender funds m s s' msgs, Reach p' me G s → G s → execute p' ctx sender funds m s = .ok (s', msgs) →
        Q ctx sender funds m s s' msgs)
    (hU : NoClash p U) {ctx : Ctx} {sender : Addr} {funds : List Coin} {m : Exec} {s s' : State} {msgs : List Msg}
    (hr : ReachIn U p me G s) (hg : G s) (hw : Within U ctx.height s m)
    (hx : execute p ctx sender funds m s = .ok (s', msgs)) : Q ctx sender funds m s s' msgs := by
  obtain ⟨p', I⟩ := C143_ideal hU
  exact hQ p' I.inj I.valid I.maxLimit I.defLimit _ _ _ _ _ _ _ (I.reach _ _ _ hr) hg ((I.call _ _ _ _ _ hw).trans hx)

/-- C04: coins in = coins out, in every call. -/
theorem C143_account (hlim : 1 ≤ p.maxLimit) (hU : NoClash p U) {ctx : Ctx} {sender : Addr} {funds : List Coin}
    {m : Exec} {s s' : State} {msgs : List Msg} (hr : ReachIn U p me NoWrap s) (hg : NoWrap s)
    (hw : Within U ctx.height s m) (hx : execute p ctx sender funds m s = .ok (s', msgs)) (d : Denom) :
    amountOf d funds + amountOf d (bidCoins s) =
      paidOut d msgs + amountOf d (bidCoins s') + (if Keeps m then amountOf d funds else 0) := by
  obtain ⟨p', I⟩ := C143_ideal hU
  exact C04_account (I.lim hlim) I.inj (I.reach _ _ _ hr) hg ((I.call _ _ _ _ _ hw).trans hx) d

/-- C09: an open bid changes only by its creator's will or by being filled. -/
theorem C143_bids (hlim : 1 ≤ p.maxLimit) (hU : NoClash p U) {ctx : Ctx} {sender : Addr} {funds : List Coin}
    {m : Exec} {s s' : State} {msgs : List Msg} (hr : ReachIn U p me NoWrap s) (hg : NoWrap s)
    (hw : Within U ctx.height s m) (hx : execute p ctx sender funds m s = .ok (s', msgs)) :
    (∀ id b, s.bids.get? id = some b →
      s'.bids.get? id = some b ∨ (b.creator = sender ∧ (m = .removeBid id ∨ ∃ d, m = .updateBid id d)) ∨
      FillsBid ctx.q s s' sender funds m msgs Buy.bid id b.creator b.details) ∧
    (∀ id b, s.cbids.get? id = some b →
      s'.cbids.get? id = some b ∨
      (b.creator = sender ∧ (m = .removeCollectionBid id ∨ ∃ d, m = .updateCollectionBid id d)) ∨
      FillsBid ctx.q s s' sender funds m msgs Buy.cbid id b.creator b.details) := by
  obtain ⟨p', I⟩ := C143_ideal hU
  have hx' := (I.call _ _ _ _ _ hw).trans hx
  exact ⟨fun _ _ hb => C09_bids (I.lim hlim) I.inj (I.reach _ _ _ hr) hg hx' hb,
    fun _ _ hb => C09_cbids (I.lim hlim) I.inj (I.reach _ _ _ hr) hg hx' hb⟩

/-- C09: the same for an ask whose token the collection reports as held by the marketplace. -/
theorem C143_asks (hlim : 1 ≤ p.maxLimit) (hpf : PrefixFree p) (hU : NoClash p U) {ctx : Ctx} {sender : Addr}
    {funds : List Coin} {m : Exec} {s s' : State} {msgs : List Msg} (hr : ReachIn U p me G s) (hne : sender ≠ me)
    (hw : Within U ctx.height s m) (hx : execute p ctx sender funds m s = .ok (s', msgs)) {id : Bytes} {a : Ask}
    (ha : s.asks.get? id = some a) (hown : ctx.q.ownerOf a.collection a.tokenId = some me) :
    s'.asks.get? id = some a ∨ (a.creator = sender ∧ (m = .removeAsk id ∨ ∃ d, m = .updateAsk id d)) ∨
    FillsAsk ctx.q s s' sender funds m msgs id a := by
  obtain ⟨p', I⟩ := C143_ideal hU
  exact C09_asks (I.lim hlim) I.inj (I.prefixFree hpf) (I.reach _ _ _ hr) hne ((I.call _ _ _ _ _ hw).trans hx) ha hown

/-- C16: the ids a call would give to new bids are not in use. -/
theorem C143_fresh {s : State} {sender coll tok : Bytes} {d : Details} {height : Nat}
    (hU : NoClash p U) (hr : ReachIn U p me NoWrap s) (hg : NoWrap s)
    (h1 : coll ++ tok ++ be8 height ++ be8 (s.nonce + 1) ∈ U) (h2 : coll ++ be8 height ++ be8 (s.nonce + 1) ∈ U) :
    s.bids.get? (Bid.new p sender coll tok d height (s.nonce + 1)).id = none ∧
    s.cbids.get? (CBid.new p sender coll d height (s.nonce + 1)).id = none := by
  obtain ⟨p', I⟩ := C143_ideal hU
  have h := C16_fresh I.inj (I.reach _ _ _ hr) hg sender coll tok d height
  rw [show (Bid.new p' sender coll tok d height (s.nonce + 1)).id = (Bid.new p sender coll tok d height (s.nonce + 1)).id
      from I.agree _ h1,
    show (CBid.new p' sender coll d height (s.nonce + 1)).id = (CBid.new p sender coll d height (s.nonce + 1)).id
      from I.agree _ h2] at h
  exact h

/-- C125: over every history the books of every account balance. -/
theorem C143_books (hlim : 1 ≤ p.maxLimit) (hU : NoClash p U) {c : Config} {s0 s : State} {l : List Act}
    (hi : instantiate p c = .ok s0) (h : DiaryIn U p me s0 l s) (hn : l.length + 1 < 2^64) :
    ∃ b : List (Act × Option Deal), b.map Prod.fst = l ∧ Books me b ∧ ∀ a d,
      putAll a d b + earnedAll a d b = amountOf d (ownCoins a s) + gotAll a d b + spentAll a d b + lostAll a d b := by
  obtain ⟨p', I⟩ := C143_ideal hU
  exact C125_history (I.lim hlim) I.inj ((I.init c).trans hi) (I.diary _ _ _ _ h) hn

/-- C128: both sides of every trade asked for it. -/
theorem C143_trade (hlim : 1 ≤ p.maxLimit) (hpf : PrefixFree p) (hns : NoSlash p) (hU : NoClash p U) {c : Config}
    {s0 s' : State} {x : Act} {l : List Act} (hi : instantiate p c = .ok s0) (h : DiaryIn U p me s0 (x :: l) s')
    (hn : l.length + 1 < 2^64) (ht : Trades x.msg x.after me x.sent) :
    ∃ S B, Nonempty (Sale x.q x.funds x.before x.after x.msg x.sent S B) ∧ (S.who = x.sender ∨ B.who = x.sender) ∧
      (∃ y d, Offered x l S.who S.coll S.tok d y ∧ d.price.denom = (priceOf x.msg S B).denom ∧
        d.price.amount ≤ (priceOf x.msg S B).amount) ∧
      (∃ y d, Offered x l S.who S.coll S.tok d y ∧ d.recipient.getD S.who = S.payTo) ∧
      (∃ y d, Wanted x l B.who S.coll S.tok d y ∧ d.price.denom = (priceOf x.msg S B).denom ∧
        (priceOf x.msg S B).amount ≤ d.price.amount ∧ d.recipient.getD B.who = B.nftTo) := by
  obtain ⟨p', I⟩ := C143_ideal hU
  exact C128_trade (I.lim hlim) I.inj (I.prefixFree hpf) (I.noSlash hns) ((I.init c).trans hi) (I.diary _ _ _ _ h) hn ht

/-- C118: what the account of the marketplace holds, in the middle of every history of the chain. -/
theorem C143_reserves (hlim : 1 ≤ p.maxLimit) (hU : NoClash p U) {c : Config} {w0 w : World State} {pending : List Msg}
    {es : List (Entry Exec Empty)} (hi : instantiate p c = .ok w0.st)
    (h : (sysIn U p me honest).Hist (w0, []) es (w, pending)) (hn : es.length + 1 < 2^64) (d : Denom) :
    w.bank me d =
      w0.bank me d + amountOf d (bidCoins w.st) + paidOut d pending + gifts me d es + strays d es := by
  obtain ⟨p', I⟩ := C143_ideal hU
  exact C118_reserves (I.lim hlim) I.inj ((I.init c).trans hi) (I.hist _ _ _ _ _ h) hn d

/-- C09 on a conforming collection, at every point of a history of the chain where a call can be made. -/
theorem C143_asks_run (hlim : 1 ≤ p.maxLimit) (hpf : PrefixFree p) (hU : NoClash p U) {c : Config} {w0 w : World State}
    {stack : List Msg} {es : List (Entry Exec Empty)} (hi : instantiate p c = .ok w0.st)
    (h : (sysIn U p me honest).Hist (w0, []) es (w, stack)) (hc : (sys p me honest).control stack) {q : Queries}
    (hq : (sys p me honest).queriesOk w q) {sender : Addr} {funds : List Coin} {m : Exec} {s' : State}
    {msgs : List Msg} (hne : sender ≠ me) (hw : Within U w.height w.st m)
    (hx : execute p ((sys p me honest).ctx w q) sender funds m w.st = .ok (s', msgs))
    {id : Bytes} {a : Ask} (ha : w.st.asks.get? id = some a) (hh : honest a.collection) :
    s'.asks.get? id = some a ∨ (a.creator = sender ∧ (m = .removeAsk id ∨ ∃ d, m = .updateAsk id d)) ∨
    FillsAsk q w.st s' sender funds m msgs id a := by
  obtain ⟨p', I⟩ := C143_ideal hU
  exact C09_asks_run (p := p') (honest := honest) (I.lim hlim) I.inj (I.prefixFree hpf)
    ⟨c, w0, (I.init c).trans hi, (I.hist _ _ _ _ _ h).steps⟩ hc hq hne
    ((I.call ((sys p me honest).ctx w q) sender funds m w.st hw).trans hx) ha hh

/-! ### Examples: a hash of fixed length, and one that is met by a collision -/

namespace Sample
/-- A hash whose values all have 32 bytes. -/
def PF : Params := withHash P (fun x => (x ++ List.replicate 32 0).take 32)
/-- A hash with a single value. -/
def PC : Params := withHash P (fun _ => [])

example : ¬ HashInj PF := fun h => by
  have := h [] [0] (by decide +kernel)
  cases this

def runF (p : Params) (c : Ctx) (sender : Addr) (funds : List Coin) (m : Exec) (s : State) : State × List Msg :=
  match execute p c sender funds m s with
  | .ok r => r
  | .error _ => (s, [])

def okF (p : Params) (c : Ctx) (sender : Addr) (funds : List Coin) (m : Exec) (s : State) : Bool :=
  match execute p c sender funds m s with
  | .ok _ => true
  | .error _ => false

theorem runF_eq {p : Params} {c : Ctx} {sender : Addr} {funds : List Coin} {m : Exec} {s : State}
    (h : okF p c sender funds m s = true) : execute p c sender funds m s = .ok (runF p c sender funds m s) := by
  unfold okF at h
  unfold runF
  split at h
  case h_1 r hr => rw [hr]
  case h_2 => cases h

/-- The sample history with the 32-byte hash. -/
def fx1 : State := (runF PF (ctx none) admin [] (.setListingFee ⟨ust, 5⟩) s0).1
def fx2 : State := (runF PF (ctx (some alice)) alice [⟨ust, 5⟩] (.setAsk coll tok (det 100)) fx1).1
def fx3 : State := (runF PF (ctx (some self)) bob [⟨ust, 80⟩] (.setBid coll tok (det' 80 carol)) fx2).1
def fx4 : State := (runF PF (ctx (some self)) carol [⟨ust, 95⟩] (.setCollectionBid coll (det 90)) fx3).1
/-- alice takes bob's bid -/
def fx5 : State × List Msg := runF PF (ctx (some self)) alice [] (.acceptBid (PF.hash (coll ++ tok ++ be8 7 ++ be8 1)) (det 80)) fx4
/-- what has been hashed -/
def UF : List Bytes := [coll ++ tok, coll ++ tok ++ be8 7 ++ be8 1, coll ++ be8 7 ++ be8 2, coll ++ tok ++ be8 7 ++ be8 3, coll ++ be8 7 ++ be8 3]

instance (p : Params) (U : List Bytes) : Decidable (NoClash p U) := by unfold NoClash; infer_instance

theorem UF_ok : NoClash PF UF := by decide +kernel

theorem nextF {s : State} {c : Ctx} {sender : Addr} {funds : List Coin} {m : Exec}
    (hr : ReachIn UF PF self NoWrap s) (hg : NoWrap s) (hself : c.self = self) (hne : sender ≠ self)
    (hU : Within UF c.height s m) (h : okF PF c sender funds m s = true) :
    ReachIn UF PF self NoWrap (runF PF c sender funds m s).1 := .call hr hg hself hne hU (runF_eq h)

theorem rf1 : ReachIn UF PF self NoWrap fx1 := nextF (.init (c := cfg) rfl) (by decide +kernel) rfl (by decide) (by decide +kernel) (by decide +kernel)
theorem rf2 : ReachIn UF PF self NoWrap fx2 := nextF rf1 (by decide +kernel) rfl (by decide) (by decide +kernel) (by decide +kernel)
theorem rf3 : ReachIn UF PF self NoWrap fx3 := nextF rf2 (by decide +kernel) rfl (by decide) (by decide +kernel) (by decide +kernel)
theorem rf4 : ReachIn UF PF self NoWrap fx4 := nextF rf3 (by decide +kernel) rfl (by decide) (by decide +kernel) (by decide +kernel)
theorem xf5 : execute PF (ctx (some self)) alice [] (.acceptBid (PF.hash (coll ++ tok ++ be8 7 ++ be8 1)) (det 80)) fx4 = .ok fx5 :=
  runF_eq (by decide +kernel)
theorem pfPF : PrefixFree PF := prefixFree
theorem nsPF : NoSlash PF := noSlash

example := C143_account (p := PF) (by decide) UF_ok rf4 (by decide +kernel) (by decide +kernel) xf5 ust
example := C143_bids (p := PF) (by decide) UF_ok rf4 (by decide +kernel) (by decide +kernel) xf5
example := C143_asks (p := PF) (by decide) pfPF UF_ok rf4 (by decide) (by decide +kernel) xf5
  (id := askId PF coll tok) (a := Ask.new PF alice coll tok (det 100)) (by decide +kernel) (by decide +kernel)
example := C143_fresh (p := PF) (sender := bob) (coll := coll) (tok := tok) (d := det 1) (height := 7) UF_ok rf4
  (by decide +kernel) (by decide +kernel) (by decide +kernel)
example := And.intro (C143_reach_finite r4) (C143_ideal UF_ok)
/-- bob's bid is gone and carol's stays -/
example : fx5.1.bids.l = [] ∧ fx5.1.cbids.l.length = 1 ∧ fx5.2.length = 6 := by decide +kernel

theorem diaryF : DiaryIn UF PF self s0
    [⟨(ctx (some self)).q, fx4, alice, [], .acceptBid (PF.hash (coll ++ tok ++ be8 7 ++ be8 1)) (det 80), fx5.1, fx5.2⟩,
     ⟨(ctx (some self)).q, fx3, carol, [⟨ust, 95⟩], .setCollectionBid coll (det 90), fx4,
      (runF PF (ctx (some self)) carol [⟨ust, 95⟩] (.setCollectionBid coll (det 90)) fx3).2⟩,
     ⟨(ctx (some self)).q, fx2, bob, [⟨ust, 80⟩], .setBid coll tok (det' 80 carol), fx3,
      (runF PF (ctx (some self)) bob [⟨ust, 80⟩] (.setBid coll tok (det' 80 carol)) fx2).2⟩,
     ⟨(ctx (some alice)).q, fx1, alice, [⟨ust, 5⟩], .setAsk coll tok (det 100), fx2,
      (runF PF (ctx (some alice)) alice [⟨ust, 5⟩] (.setAsk coll tok (det 100)) fx1).2⟩,
     ⟨(ctx none).q, s0, admin, [], .setListingFee ⟨ust, 5⟩, fx1,
      (runF PF (ctx none) admin [] (.setListingFee ⟨ust, 5⟩) s0).2⟩] fx5.1 := by
  refine .call (.call (.call (.call (.call .nil rfl (by decide) (by decide +kernel) (runF_eq (by decide +kernel))) rfl
    (by decide) (by decide +kernel) (runF_eq (by decide +kernel))) rfl (by decide) (by decide +kernel)
    (runF_eq (by decide +kernel))) rfl (by decide) (by decide +kernel) (runF_eq (by decide +kernel))) rfl
    (by decide) (by decide +kernel) xf5

example := C143_books (p := PF) (c := cfg) (by decide) UF_ok rfl diaryF (by decide)
example := C143_trade (p := PF) (c := cfg) (by decide) pfPF nsPF UF_ok rfl diaryF (by decide)
  (trades_of (c := coll) (t := tok) (to := bob) (by decide +kernel) (by decide) (fun _ h => nomatch h))

/-- The chain with this marketplace; alice lists her token and the messages of the call are carried out. -/
abbrev MF := sysIn UF PF self hon
abbrev ef1 : State × List Msg := runF PF (MF.ctx w0 (q (some alice) none)) admin [] (.setListingFee ⟨ust, 5⟩) s0
def wf1 : World State := { w0 with bank := moveFunds w0.bank admin self [], st := ef1.1 }
abbrev ef2 : State × List Msg := runF PF (MF.ctx wf1 (q (some alice) none)) alice [⟨ust, 5⟩] (.setAsk coll tok (det 100)) wf1.st
def wf2 : World State := { wf1 with bank := moveFunds wf1.bank alice self [⟨ust, 5⟩], st := ef2.1 }
def wf3 : World State := { wf2 with bank := moveFunds wf2.bank self feeMgr [⟨ust, 5⟩] }
def wf4 : World State := { wf3 with owner := setOwner wf3.owner coll tok self }
abbrev esF : List (Entry Exec Empty) := [.call alice [⟨ust, 5⟩] (.setAsk coll tok (det 100)) ef2.2, .call admin [] (.setListingFee ⟨ust, 5⟩) ef1.2]

theorem hf1 : MF.Hist (w0, []) [.call admin [] (.setListingFee ⟨ust, 5⟩) ef1.2] (wf1, []) := by
  have hx := runF_eq (p := PF) (c := MF.ctx w0 (q (some alice) none)) (sender := admin) (funds := [])
    (m := .setListingFee ⟨ust, 5⟩) (s := s0) (by decide +kernel)
  have hm : ef1.2 = [] := by decide +kernel
  have := Sys.Did.call (S := MF) w0 [] admin [] (.setListingFee ⟨ust, 5⟩) (q (some alice) none) ef1.1 ef1.2 trivial (by decide)
    (fun d => Nat.zero_le _) (fun _ _ _ => rfl) (sysIn_exec.2 ⟨by decide +kernel, hx⟩)
  rw [List.append_nil, hm] at this
  rw [hm]
  exact .cons .nil this

theorem hf2 : MF.Hist (w0, []) esF (wf2, ef2.2) := by
  have hx := runF_eq (p := PF) (c := MF.ctx wf1 (q (some alice) none)) (sender := alice) (funds := [⟨ust, 5⟩])
    (m := .setAsk coll tok (det 100)) (s := wf1.st) (by decide +kernel)
  have := Sys.Did.call (S := MF) wf1 [] alice [⟨ust, 5⟩] (.setAsk coll tok (det 100)) (q (some alice) none) ef2.1 ef2.2 trivial (by decide)
    ?_ (fun _ _ _ => rfl) (sysIn_exec.2 ⟨by decide +kernel, hx⟩)
  · rw [List.append_nil] at this
    exact .cons hf1 this
  · intro d
    simp only [amountOf, Coin.inDenom]
    by_cases h : d = ust
    · subst h; decide +kernel
    · rw [if_neg (fun e => h e.symm)]; omega

theorem ef2_msgs : ef2.2 = [.send feeMgr [⟨ust, 5⟩], .nft coll tok self] := by decide +kernel

theorem hf3 : MF.Hist (w0, []) (.paid feeMgr [⟨ust, 5⟩] :: esF) (wf3, [.nft coll tok self]) := by
  have h := hf2
  rw [ef2_msgs] at h
  have := Sys.Did.send (S := MF) wf2 feeMgr [⟨ust, 5⟩] [.nft coll tok self] (by simp) (by simp) ?_
  · have h2 := Sys.Hist.cons h this
    unfold esF
    rw [ef2_msgs]
    exact h2
  · intro d
    simp only [amountOf, Coin.inDenom]
    by_cases h : d = ust
    · subst h; decide +kernel
    · rw [if_neg (fun e => h e.symm)]; omega

/-- A call inside the chain: bob bids 80. -/
abbrev ef5 : State × List Msg := runF PF ((sys PF self hon).ctx wf4 (q (some self) none)) bob [⟨ust, 80⟩] (.setBid coll tok (det 80)) wf4.st

theorem ownF : (sys PF self hon).queriesOk wf4 (q (some self) none) := by
  intro c t _
  show (if c = coll ∧ t = tok then some self else none) =
    if c = coll ∧ t = tok then some self else if c = coll ∧ t = tok then some alice else none
  by_cases h : c = coll ∧ t = tok
  · rw [if_pos h, if_pos h]
  · rw [if_neg h, if_neg h, if_neg h]

example := C143_reserves (p := PF) (c := cfg) (by decide) UF_ok rfl hf3 (by decide) ust
example (es : List (Entry Exec Empty)) (h : MF.Hist (w0, []) es (wf4, [])) :=
  C143_asks_run (p := PF) (c := cfg) (by decide) pfPF UF_ok rfl h trivial (q := q (some self) none) ownF
    (sender := bob) (by decide) (by decide +kernel)
    (runF_eq (p := PF) (c := (sys PF self hon).ctx wf4 (q (some self) none)) (sender := bob) (funds := [⟨ust, 80⟩])
      (m := .setBid coll tok (det 80)) (s := wf4.st) (by decide +kernel))
    (id := askId PF coll tok) (a := Ask.new PF alice coll tok (det 100)) (by decide +kernel) trivial
/-- and there is such a history -/
example : ∃ es, MF.Hist (w0, []) es (wf4, []) :=
  ⟨_, .cons hf3 (.nft wf3 coll tok self [] alice trivial (by decide +kernel) (Or.inr rfl))⟩

/-- With a hash that has one value: bob bids 80 for a token nobody has listed, next to alice's listing at 100. -/
def gx1 : State := (runF PC (ctx none) admin [] (.setListingFee ⟨ust, 5⟩) s0).1
def gx2 : State := (runF PC (ctx (some alice)) alice [⟨ust, 5⟩] (.setAsk coll tok (det 100)) gx1).1
def gx3 : State := (runF PC (ctx (some self)) bob [⟨ust, 80⟩] (.setBid coll [50] (det 80)) gx2).1
/-- carol buys alice's token; bob's bid disappears, and with it the claim on 80 coins -/
def gx4 : State × List Msg := runF PC (ctx (some self)) carol [⟨ust, 100⟩] (.acceptAsk [] (det 100)) gx3

theorem nextC {s : State} {c : Ctx} {sender : Addr} {funds : List Coin} {m : Exec}
    (hr : Reach PC self NoWrap s) (hg : NoWrap s) (hself : c.self = self) (hne : sender ≠ self)
    (h : okF PC c sender funds m s = true) : Reach PC self NoWrap (runF PC c sender funds m s).1 :=
  .call hr hg hself hne (runF_eq h)
theorem rg1 : Reach PC self NoWrap gx1 := nextC (.init (c := cfg) rfl) (by decide +kernel) rfl (by decide) (by decide +kernel)
theorem rg2 : Reach PC self NoWrap gx2 := nextC rg1 (by decide +kernel) rfl (by decide) (by decide +kernel)
theorem rg3 : Reach PC self NoWrap gx3 := nextC rg2 (by decide +kernel) rfl (by decide) (by decide +kernel)
theorem xg4 : execute PC (ctx (some self)) carol [⟨ust, 100⟩] (.acceptAsk [] (det 100)) gx3 = .ok gx4 := runF_eq (by decide +kernel)
end Sample

/-- The assumption is needed: when two of the strings hashed have the same hash, coins can get lost. -/
theorem C143_needed : ¬ ∀ (p : Params) (me : Addr), 1 ≤ p.maxLimit → PrefixFree p → NoSlash p →
    ∀ (ctx : Ctx) (sender : Addr) (funds : List Coin) (m : Exec) (s s' : State) (msgs : List Msg),
      Reach p me NoWrap s → NoWrap s → execute p ctx sender funds m s = .ok (s', msgs) → ∀ d,
      amountOf d funds + amountOf d (bidCoins s) =
        paidOut d msgs + amountOf d (bidCoins s') + (if Keeps m then amountOf d funds else 0) := by
  intro h
  have := h Sample.PC Sample.self (by decide) Sample.prefixFree Sample.noSlash _ _ _ _ _ _ _ Sample.rg3
    (by decide +kernel) Sample.xg4 Sample.ust
  revert this
  decide +kernel

end Verif.V2
